import Verif.Interp.Scopes
import Verif.Interp.Levels
import Verif.Interp.Terminate

/-!
# Properties of the DSL interpreter: C26 (scopes), C27 (recursion guard), C28 (result), C29 (short circuit)

`(interp H P n).ev e` and `(interp H P n).ex s` run an expression or statement with fuel `n`; all theorems hold for
every fuel, every host environment `H` and every program `P`.
-/

namespace Verif.Interp

open Verif.Dict Verif.Types
variable {F : Type}

/-! ### a concrete host for examples: floats are tenths -/

/-- floats as multiples of 0.1; no built-ins but `boom`, which raises, and `id` -/
def demoHost : Host Int where
  ofInt n := 10 * n
  toInt x := some (x.tdiv 10)
  idiv a b := (10 * a).fdiv b
  ipow _ _ := 0
  fop op x y := match op with
    | .plus => some (x + y)
    | .minus => some (x - y)
    | _ => none
  fcmp op x y := intCmp op x y
  fneg x := -x
  otherOp _ _ _ := .error (.other "TypeError")
  otherCmp _ _ _ := .error (.other "TypeError")
  otherNeg _ := .error (.other "TypeError")
  str _ := ""
  eq _ _ := false
  parseInt _ := .error (.other "TypeError")
  parseFloat _ := .error (.other "TypeError")
  iter _ := none
  getitem _ _ := .error (.other "TypeError")
  hasItem _ := false
  attr _ _ := none
  builtin n := if n = "boom" then some (fun _ => .error (.rt "boom")) else none
  method _ _ := none
  native _ := none
  pyExec _ _ := .ok none
  pyEval _ ns := match dget ns "x" with
    | some d => .ok d
    | none => .error (.other "NameError")
  applyMeta _ d := .ok d

/-- integer literal -/
def iLit (n : Int) : Expr Int := .lit (.int n)

/-! ### C26 -/

/-- C26: whatever is run and however it ends, the scope chain afterwards has the same scopes, and every scope but the
current one has the same names as before. -/
theorem C26_scope_stack (H : Host F) (P : Prog F) (n : Nat) (st : Stmt F) (s : St F) :
    (((interp H P n).ex st) s).2.ctx.frames.length = s.ctx.frames.length ∧
    (((interp H P n).ex st) s).2.ctx.frames.tail.map keys = s.ctx.frames.tail.map keys := by
  have h : TR s.ctx.frames _ := (pres_interp (good_SR P) H n).2 st s
  refine ⟨TR_length _ _ h, ?_⟩
  revert h
  generalize (((interp H P n).ex st) s).2.ctx.frames = g
  intro h
  have key : ∀ (Hid : String → Prop) (a b : List (Frame F)), FR Hid a b → b.map keys = a.map keys := by
    intro Hid a
    induction a generalizing Hid with
    | nil => intro b h; cases b <;> simp_all [FR]
    | cons f a ih =>
      intro b h
      cases b with
      | nil => cases h
      | cons g b => simp [h.1, ih _ b h.2.2]
  cases hs : s.ctx.frames with
  | nil => rw [hs] at h; cases g <;> simp_all [TR]
  | cons f fs =>
    rw [hs] at h
    cases g with
    | nil => cases h
    | cons g gs => exact key _ _ _ h.2

/-- C26, the same for expressions. -/
theorem C26_scope_stack_expr (H : Host F) (P : Prog F) (n : Nat) (e : Expr F) (s : St F) :
    (((interp H P n).ev e) s).2.ctx.frames.length = s.ctx.frames.length :=
  TR_length _ _ ((pres_interp (good_SR P) H n).1 e s)

theorem lookup_FR {Hid : String → Prop} (a : List (Frame F)) : ∀ b, FR Hid a b → ∀ x, Hid x → lookup b x = lookup a x := by
  induction a generalizing Hid with
  | nil => intro b h x _; cases b <;> simp_all [FR]
  | cons f a ih =>
    intro b h x hx
    cases b with
    | nil => cases h
    | cons g b =>
      simp only [lookup]
      rw [h.2.1 x hx, ih b h.2.2 x (.inl hx)]

theorem lookup_isSome_FR {Hid : String → Prop} (a : List (Frame F)) :
    ∀ b, FR Hid a b → ∀ x, (lookup b x).isSome = (lookup a x).isSome := by
  induction a generalizing Hid with
  | nil => intro b h x; cases b <;> simp_all [FR]
  | cons f a ih =>
    intro b h x
    cases b with
    | nil => cases h
    | cons g b =>
      simp only [lookup]
      have h1 : (dget g x).isSome = (dget f x).isSome := by
        rw [Bool.eq_iff_iff, dget_isSome_iff, dget_isSome_iff, h.1]
      cases hg : dget g x <;> cases hf : dget f x <;> simp_all
      exact ih b h.2.2 x

/-- C26: if the current scope binds `x`, then nothing run in it changes the meaning `x` has outside that scope. -/
theorem C26_shadow (H : Host F) (P : Prog F) (n : Nat) (st : Stmt F) (s : St F) (f : Frame F) (fs : List (Frame F))
    (hs : s.ctx.frames = f :: fs) (x : String) (hx : x ∈ keys f) :
    lookup (((interp H P n).ex st) s).2.ctx.frames.tail x = lookup fs x := by
  have h : TR s.ctx.frames _ := (pres_interp (good_SR P) H n).2 st s
  rw [hs] at h
  revert h
  generalize (((interp H P n).ex st) s).2.ctx.frames = g
  intro h
  cases g with
  | nil => cases h
  | cons g gs => exact lookup_FR _ _ h.2 x hx

/-- C26: after a block, exactly the variables that were visible before are visible. -/
theorem C26_block_local (H : Host F) (P : Prog F) (n : Nat) (ss : List (Stmt F)) (s : St F) (x : String) :
    (lookup (((interp H P n).ex (.block ss)) s).2.ctx.frames x).isSome = (lookup s.ctx.frames x).isSome := by
  cases n with
  | zero => rfl
  | succ n =>
    have : Pres KR (execStep H (interp H P n) (.block ss)) :=
      kpres_scope (pres_runBody (good_SR P) (pres_interp (good_SR P) H n).2 ss)
    exact lookup_isSome_FR _ _ (this s) x

/-- C26 (partial): after a for loop, exactly the variables that were visible before are visible: neither the loop
variable nor anything bound in the body is left. Missing: an iterable that itself binds a name in a match
(`C26_match_leaks`). -/
theorem C26_for_local_partial (H : Host F) (P : Prog F) (hD : DefaultsNoBind P) (n : Nat) (v : String) (it : Expr F)
    (hi : NoBind it) (body : List (Stmt F)) (s : St F) (x : String) :
    (lookup (((interp H P n).ex (.forS v it body)) s).2.ctx.frames x).isSome = (lookup s.ctx.frames x).isSome := by
  cases n with
  | zero => rfl
  | succ n =>
    have : Pres KR (execStep H (interp H P n) (.forS v it body)) := by
      refine kpres_bind (kpres_interp hD H n it hi) (fun w => kpres_bind (fun s => KR_refl s) (fun items => ?_))
      exact kpres_scope (pres_forItems (good_SR P) (pres_interp (good_SR P) H n).2 _ _ _ _)
    exact lookup_isSome_FR _ _ (this s) x

/-- C26 (partial): likewise after an if statement with any number of elif branches. -/
theorem C26_if_local_partial (H : Host F) (P : Prog F) (hD : DefaultsNoBind P) (n : Nat) (c : Expr F) (hc : NoBind c)
    (thn : List (Stmt F)) (elifs : List (Expr F × List (Stmt F))) (he : ∀ b ∈ elifs, NoBind b.1)
    (els : Option (List (Stmt F))) (s : St F) (x : String) :
    (lookup (((interp H P n).ex (.ifS c thn elifs els)) s).2.ctx.frames x).isSome =
      (lookup s.ctx.frames x).isSome := by
  cases n with
  | zero => rfl
  | succ n =>
    have hk := kpres_interp hD H n
    have hex := (pres_interp (good_SR P) H n).2
    have : Pres KR (execStep H (interp H P n) (.ifS c thn elifs els)) := by
      refine kpres_bind (kpres_truthy hk hc) (fun b => ?_)
      split_ifs
      · exact kpres_scope (pres_runBody (good_SR P) hex _)
      · clear hc
        induction elifs with
        | nil =>
          unfold runElifs
          cases els with
          | none => exact fun s => KR_refl s
          | some ss => exact kpres_scope (pres_runBody (good_SR P) hex _)
        | cons b bs ih =>
          unfold runElifs
          refine kpres_bind (kpres_truthy hk (he b (by simp))) (fun t => ?_)
          split_ifs
          · exact kpres_scope (pres_runBody (good_SR P) hex _)
          · exact ih (fun b hb => he b (List.mem_cons_of_mem _ hb))
    exact lookup_isSome_FR _ _ (this s) x

theorem update_spec (fs : List (Frame F)) (x : String) (v : Val F) :
    (update fs x v = none ↔ lookup fs x = none) ∧
    ∀ fr, update fs x v = some fr → ∃ pre f post, fs = pre ++ f :: post ∧ (∀ g ∈ pre, x ∉ keys g) ∧ x ∈ keys f ∧
      fr = pre ++ dset f x v :: post := by
  induction fs with
  | nil => simp [update, lookup]
  | cons f fs ih =>
    unfold update lookup
    cases hf : dget f x with
    | some w =>
      simp only [Option.isSome_some, if_true]
      refine ⟨by simp, ?_⟩
      intro fr h
      cases h
      exact ⟨[], f, fs, rfl, by simp, (dget_isSome_iff f x).mp (by simp [hf]), rfl⟩
    | none =>
      simp only [Option.isSome_none, Bool.false_eq_true, if_false, Option.map_eq_none_iff]
      refine ⟨ih.1, ?_⟩
      intro fr h
      cases hu : update fs x v with
      | none => rw [hu] at h; cases h
      | some fr' =>
        rw [hu] at h
        simp only [Option.map_some, Option.some.injEq] at h
        subst h
        obtain ⟨pre, g, post, h1, h2, h3, h4⟩ := ih.2 fr' hu
        refine ⟨f :: pre, g, post, by simp [h1], ?_, h3, by simp [h4]⟩
        intro k hk
        rcases List.mem_cons.mp hk with rfl | hk
        · exact fun hx => by have := (dget_isSome_iff k x).mpr hx; simp [hf] at this
        · exact h2 k hk

/-- C26: an assignment changes the value of `x` in the innermost scope that binds it, and nothing else. -/
theorem C26_assign (H : Host F) (P : Prog F) (n : Nat) (x : String) (e : Expr F) (s s1 : St F) (v : Val F)
    (he : (interp H P n).ev e s = (.ok v, s1)) (hx : (lookup s1.ctx.frames x).isSome) :
    ∃ pre f post, s1.ctx.frames = pre ++ f :: post ∧ (∀ g ∈ pre, x ∉ keys g) ∧ x ∈ keys f ∧
      (interp H P (n + 1)).ex (.assign x e) s =
        (.ok (), { s1 with ctx := { s1.ctx with frames := pre ++ dset f x v :: post } }) := by
  have h1 : (interp H P (n + 1)).ex (.assign x e) s = assignVar x v s1 := bind_ok he
  rw [h1]
  cases hu : update s1.ctx.frames x v with
  | none => rw [(update_spec _ _ _).1] at hu; simp [hu] at hx
  | some fr =>
    obtain ⟨pre, f, post, h2, h3, h4, h5⟩ := (update_spec _ _ _).2 fr hu
    refine ⟨pre, f, post, h2, h3, h4, ?_⟩
    unfold assignVar modCtx
    simp only [hu, h5]

/-- Non-vacuity of the C26 theorems: an outer `x`, shadowed in a loop and assigned there. -/
example :
    let P : Prog Int := ⟨[], 5⟩
    let s0 : St Int := { ctx := freshCtx 0 [("x", ⟨.int 1, .prim .int, false⟩)], depth := 0, log := [] }
    let r := (interp demoHost P 9).ex
      (.forS "i" (.range (iLit 0) (iLit 3)) [.letS "x" (iLit 7), .assign "x" (.ident "i")]) s0
    r.2.ctx.frames = s0.ctx.frames := rfl

/-- C26 (violated): a name bound by a match arm remains bound in the scope around the match. -/
theorem C26_match_leaks :
    let P : Prog Int := ⟨[], 5⟩
    let r := (interp demoHost P 9).ex (.expr (.matchE (iLit 3) [(.ident "k", .ident "k")])) st0
    lookup (st0 : St Int).ctx.frames "k" = none ∧ (lookup r.2.ctx.frames "k").isSome = true := by
  exact ⟨rfl, rfl⟩

/-- C26 (violated): a parameter's default value is evaluated among the caller's variables: the command `F(a, b = q)`
called where a local `q` exists sees that local. -/
theorem C26_default_sees_caller :
    let P : Prog Int := ⟨[⟨"F", [⟨"b", none, some (.ident "q")⟩], [.emit (.ident "b") []], none⟩], 5⟩
    let s0 : St Int := { ctx := freshCtx 0 [("q", ⟨.int 42, .prim .int, false⟩)], depth := 0, log := [] }
    ((interp demoHost P 9).ev (.call "F" [] []) s0).1 = .ok ⟨.int 42, .prim .int, true⟩ ∧
    ((interp demoHost P 9).ev (.call "F" [] []) st0).1 = .error (.py (.rt "Undefined variable")) := by
  exact ⟨rfl, rfl⟩

/-! ### C27 -/

/-- C27: the call depth is restored on every exit path of every expression and statement. -/
theorem C27_depth_restored (H : Host F) (P : Prog F) (n : Nat) (s : St F) :
    (∀ e, (((interp H P n).ev e) s).2.depth = s.depth) ∧ (∀ st, (((interp H P n).ex st) s).2.depth = s.depth) :=
  ⟨fun e => ((pres_interp (good_LR P) H n).1 e s).1, fun st => ((pres_interp (good_LR P) H n).2 st s).1⟩

/-- C27: no command is ever entered at a call depth beyond the limit. -/
theorem C27_within_limit (H : Host F) (P : Prog F) (n : Nat) (st : Stmt F) (s : St F) (h : s.ctx.level ≤ s.depth) :
    ∃ l, (((interp H P n).ex st) s).2.log = s.log ++ l ∧ ∀ c k, Event.enter c k ∈ l → s.depth < k ∧ k ≤ P.limit := by
  obtain ⟨_, _, h3⟩ := (pres_interp (good_LR P) H n).2 st s
  obtain ⟨l, h4, _, h5, _⟩ := h3 h
  exact ⟨l, h4, h5⟩

/-- C27: a call at the limit is refused with an error and changes nothing. -/
theorem C27_refused (H : Host F) (P : Prog F) (f : Fns F) (cmd : Cmd F) (args : List (Val F)) (s : St F)
    (h : P.limit ≤ s.depth) :
    callCommand H P f cmd args s = (.error (.py (.rt "Maximum recursion depth exceeded")), s) := by
  unfold callCommand
  rw [if_pos (by omega)]

/-- C27: a call below the limit, with one argument for each parameter, enters the command. -/
theorem C27_admitted (H : Host F) (P : Prog F) (n : Nat) (cmd : Cmd F) (args : List (Val F)) (s : St F)
    (h : s.depth < P.limit) (ha : args.length = cmd.params.length) :
    ∃ l, (callCommand H P (interp H P n) cmd args s).2.log = s.log ++ .enter cmd.name (s.depth + 1) :: l := by
  have hr : requiredCount cmd ≤ cmd.params.length := List.length_filter_le _ _
  unfold callCommand
  rw [if_neg (by omega)]
  show ∃ l, (callBody H (interp H P n) cmd args { s with depth := s.depth + 1 }).2.log = _
  unfold callBody
  rw [if_neg (by omega), ha, List.drop_length]
  have : fillDefaults (interp H P n) [] (bindArgs cmd.params args) { s with depth := s.depth + 1 } =
    (.ok (bindArgs cmd.params args), { s with depth := s.depth + 1 }) := rfl
  rw [bind_ok this, inNewCtx_state]
  obtain ⟨_, _, h3⟩ := pres_runBody (good_LR P) (pres_interp (good_LR P) H n).2 cmd.body
    { ctx := freshCtx (s.depth + 1) (bindArgs cmd.params args), depth := s.depth + 1,
      log := s.log ++ [.enter cmd.name (s.depth + 1)] }
  obtain ⟨l, h4, _⟩ := h3 (Nat.le_refl _)
  refine ⟨l, ?_⟩
  simp only at h4 ⊢
  rw [h4]
  simp

/-- Non-vacuity: an endlessly recursive command with limit 3 is entered at depths 1, 2, 3, and then an error results. -/
example :
    let P : Prog Int := ⟨[⟨"F", [], [.emit (.call "F" [] []) []], none⟩], 3⟩
    let r := (interp demoHost P 30).ev (.call "F" [] []) st0
    r.1 = .error (.py (.rt "Maximum recursion depth exceeded")) ∧
    r.2.log = [.enter "F" 1, .enter "F" 2, .enter "F" 3] ∧ r.2.depth = 0 := by exact ⟨rfl, rfl, rfl⟩

/-! ### C28 -/

/-- the state right after the body of the command given to `execute`, if it gets that far -/
def afterBody (H : Host F) (P : Prog F) (n : Nat) (cmd : Cmd F) (params : List (String × Val F)) (s : St F) :
    Except Exn Unit × St F :=
  runBody (interp H P n) cmd.body { s with ctx := freshCtx s.depth params }

/-- C28: `execute` reports success exactly when no exception ended the run (including the application of the
`@meta` hint), the log has an emit of the command itself, and no failed requirement of the command itself. -/
theorem C28_success_iff (H : Host F) (P : Prog F) (n : Nat) (name : String) (raw : List (String × Data F)) (cmd : Cmd F)
    (hc : findCmd P name = some cmd) (params : List (String × Val F)) (s : St F)
    (hp : wrapParams (interp H P n) raw cmd.params [] st0 = (.ok params, s)) :
    (∃ r, (execute H P n name raw).1 = .ok r ∧ r.success = true) ↔
      ∃ s' l, afterBody H P n cmd params s = (.ok (), s') ∧ (applyHint H cmd s').1 = .ok () ∧ s'.log = s.log ++ l ∧
        emitsAt s.depth l ≠ [] ∧ failsAt s.depth l = [] := by
  have hL := pres_runBody (good_LR P) (pres_interp (good_LR P) H n).2 cmd.body { s with ctx := freshCtx s.depth params }
  unfold execute afterBody
  rw [hc]
  simp only [hp]
  rcases hb : runBody (interp H P n) cmd.body { s with ctx := freshCtx s.depth params } with ⟨r, s'⟩
  rw [hb] at hL
  obtain ⟨_, _, h3⟩ := hL
  obtain ⟨l, h4, _, _, h5, h6⟩ := h3 (Nat.le_refl _)
  simp only [freshCtx, List.nil_append, Option.map_none] at h4 h5 h6
  cases r with
  | error e =>
    constructor
    · rintro ⟨r, h1, h2⟩
      cases e with
      | outOfFuel => simp at h1
      | py e => cases e with
        | rt m => simp only [Except.ok.injEq] at h1; subst h1; simp at h2
        | other m => simp at h1
    · rintro ⟨s2, l2, h1, _⟩; simp at h1
  | ok u =>
    have hemit : s'.ctx.emit.isSome = true ↔ emitsAt s.depth l ≠ [] := by
      cases hg : emitsAt s.depth l with
      | nil =>
        rw [hg] at h6
        have : s'.ctx.emit = none := by simpa [lastOr] using h6
        simp [this]
      | cons v vs =>
        rw [hg] at h6
        cases hm : s'.ctx.emit with
        | some _ => simp
        | none => rw [hm] at h6; simp [lastOr, List.getLast?_cons] at h6
    obtain ⟨c, hc1, hc2, hc3, hc4⟩ := applyHint_state H cmd s'
    rcases ha : applyHint H cmd s' with ⟨ra, sa⟩
    rw [ha] at hc1
    simp only at hc1
    subst hc1
    cases ra with
    | error e =>
      simp only [ha]
      constructor
      · rintro ⟨r, h1, h2⟩; simp at h1
      · rintro ⟨s2, l2, h1, h2, _⟩
        simp only [Prod.mk.injEq, true_and] at h1
        subst h1
        rw [ha] at h2; simp at h2
    | ok ua =>
      simp only [ha]
      constructor
      · rintro ⟨r, h1, h2⟩
        refine ⟨s', l, rfl, by rw [ha], h4, ?_, ?_⟩
        · rw [← hemit, ← hc4]
          cases hm : c.emit with
          | some _ => rfl
          | none =>
            rw [hm] at h1
            split_ifs at h1 with h7 h8
            · simp only [Except.ok.injEq] at h1; subst h1; cases h2
            · simp only [Except.ok.injEq] at h1; subst h1; cases h2
            · exact absurd rfl h8
        · cases hf : failsAt s.depth l with
          | nil => rfl
          | cons m ms =>
            rw [hc3, h5, hf] at h1
            simp at h1
            subst h1; simp at h2
      · rintro ⟨s2, l2, h1, _, h2, hE, hF⟩
        simp only [Prod.mk.injEq, true_and] at h1
        subst h1
        have : l2 = l := List.append_cancel_left (h2.symm.trans h4)
        subst this
        rw [hF] at h5
        rw [← hemit, ← hc4] at hE
        rw [hc3, h5]
        have : c.emit.isNone = false := by
          cases h : c.emit <;> simp_all
        rw [this]
        exact ⟨_, rfl, rfl⟩

/-- C28: on success the value reported is that of the command's last executed emit. -/
theorem C28_last_emit (H : Host F) (P : Prog F) (n : Nat) (name : String) (raw : List (String × Data F)) (cmd : Cmd F)
    (hc : findCmd P name = some cmd) (hh : cmd.hint = none) (params : List (String × Val F)) (s s' : St F)
    (hp : wrapParams (interp H P n) raw cmd.params [] st0 = (.ok params, s))
    (hb : afterBody H P n cmd params s = (.ok (), s')) (r : Result F) (hr : (execute H P n name raw).1 = .ok r)
    (hs : r.success = true) :
    ∃ l, s'.log = s.log ++ l ∧ r.emit.map (·.1) = (emitsAt s.depth l).getLast? := by
  have hL := pres_runBody (good_LR P) (pres_interp (good_LR P) H n).2 cmd.body { s with ctx := freshCtx s.depth params }
  unfold afterBody at hb
  unfold execute at hr
  rw [hc] at hr
  simp only [hp] at hr
  rw [hb] at hL hr
  obtain ⟨_, _, h3⟩ := hL
  obtain ⟨l, h4, _, _, h5, h6⟩ := h3 (Nat.le_refl _)
  simp only [freshCtx, List.nil_append, Option.map_none] at h4 h5 h6
  have hah : applyHint H cmd s' = (.ok (), s') := by unfold applyHint; rw [hh]
  simp only [hah] at hr
  refine ⟨l, h4, ?_⟩
  have : lastOr (none : Option (Val F)) (emitsAt s.depth l) = (emitsAt s.depth l).getLast? := by
    unfold lastOr; cases (emitsAt s.depth l).getLast? <;> rfl
  rw [← this, ← h6]
  split_ifs at hr <;> simp only [Except.ok.injEq] at hr <;> subst hr <;> simp at hs ⊢

/-- C28: statements after one that returned are not executed; the state is the one the return left. -/
theorem C28_return_stops (f : Fns F) (pre post : List (Stmt F)) (st : Stmt F) (s s1 s2 : St F)
    (h1 : runBody f pre s = (.ok (), s1)) (h2 : f.ex st s1 = (.ok (), s2)) (hr0 : s1.ctx.ret = none)
    (hr : s2.ctx.ret.isSome) : runBody f (pre ++ st :: post) s = (.ok (), s2) := by
  induction pre generalizing s with
  | nil =>
    cases h1
    show (f.ex st >>= fun _ => unlessRet (runBody f post)) s1 = _
    rw [bind_ok h2]
    simp [unlessRet, hr]
  | cons p pre ih =>
    show (f.ex p >>= fun _ => unlessRet (runBody f (pre ++ st :: post))) s = _
    replace h1 : (f.ex p >>= fun _ => unlessRet (runBody f pre)) s = (.ok (), s1) := h1
    rcases hp : f.ex p s with ⟨r, s'⟩
    cases r with
    | error e => rw [bind_err hp] at h1; cases h1
    | ok u =>
      rw [bind_ok hp] at h1 ⊢
      unfold unlessRet at h1 ⊢
      by_cases hq : s'.ctx.ret.isSome
      · simp only [hq, if_true, Prod.mk.injEq, true_and] at h1
        subst h1; rw [hr0] at hq; cases hq
      · simp only [hq] at h1 ⊢
        exact ih s' h1

/-- Non-vacuity: two emits and a return before a third; the second value is the result. -/
example :
    let P : Prog Int := ⟨[⟨"F", [], [.emit (iLit 1) [], .emit (iLit 2) [], .ret none, .emit (iLit 3) []], none⟩], 3⟩
    (execute demoHost P 9 "F" []).1 =
      .ok { success := true, emit := some (⟨.int 2, .prim .int, false⟩, []) } := rfl

/-! ### C29 -/

/-- C29 (violated): both operands of `and` and of `or` are always evaluated before the left one is looked at. -/
theorem C29_both_evaluated (H : Host F) (P : Prog F) (n : Nat) (op : Op) (a b : Expr F) (s s1 s2 : St F) (l : Val F)
    (e : Exn) (ha : (interp H P n).ev a s = (.ok l, s1)) (hb : (interp H P n).ev b s1 = (.error e, s2)) :
    (interp H P (n + 1)).ev (.bin op a b) s = (.error e, s2) := by
  show ((interp H P n).ev a >>= fun l => (interp H P n).ev b >>= fun r => lift (opVal H op l r)) s = _
  rw [bind_ok ha, bind_err hb]

/-- C29 (violated), a run: `false and boom()` calls `boom` and fails. -/
theorem C29_not_short_circuit :
    let P : Prog Int := ⟨[], 5⟩
    let r := (interp demoHost P 9).ev (.bin .and (.lit (.bool false)) (.call "boom" [] [])) st0
    r.1 = .error (.py (.rt "boom")) ∧ r.2.log = [.builtin "boom" 0] := by exact ⟨rfl, rfl⟩

/-- C29 (partial): when both operands evaluate, the value of `a and b` (of `a or b`) is the conjunction (disjunction) of
their truth values. Missing: not evaluating the right operand, which the program does not do. -/
theorem C29_value_partial (H : Host F) (l r : Val F) (x y : Bool) (hl : truthy H l = .ok x) (hr : truthy H r = .ok y) :
    opVal H .and l r = .ok (boolVal (x && y)) ∧ opVal H .or l r = .ok (boolVal (x || y)) := by
  unfold opVal logicVal
  simp only [hl, hr]
  cases x <;> cases y <;> exact ⟨rfl, rfl⟩

end Verif.Interp
