import Verif.Interp.Props

/-!
# More properties of the DSL interpreter

C77 (runs end), C78 (one branch), C79 (comprehensions), C80 (command results as conditions), C81 (embedded Python),
C82 (assignment to an undefined variable), C83 (nested requirements), C84 (type tags), C85 (integer arithmetic).
-/

namespace Verif.Interp

open Verif.Dict Verif.Types
variable {F : Type}

/-! ### C77 termination -/

theorem safe_wrapParams {f : Fns F} {d : Nat} (raw : List (String × Data F)) (ps : List (Param F))
    (hp : ∀ p ∈ ps, ∀ e, p.default = some e → Safe d (f.ev e)) : ∀ m, Safe d (wrapParams f raw ps m) := by
  induction ps with
  | nil => exact fun m => safe_pure d _
  | cons p ps ih =>
    intro m
    have ih := ih (fun q hq => hp q (List.mem_cons_of_mem _ hq))
    unfold wrapParams
    cases dget raw p.name with
    | some r => exact ih _
    | none =>
      cases hd : p.default with
      | none => exact ih m
      | some e => exact safe_bind (hp p (by simp) e hd) (fun v => ih _)

/-- C77 (partial): every run of every command ends, for every recursion limit: there is a fuel from which on the run
never lacks any. Missing: programs with named arguments inside a default value (`C77_named_default_diverges`). -/
theorem C77_terminates_partial (P : Prog F) (hN : DefaultsNoNamed P) :
    ∃ N, ∀ (H : Host F) (n : Nat), N ≤ n → ∀ name raw, (execute H P n name raw).1 ≠ .error .outOfFuel := by
  obtain ⟨K, hK⟩ := bounds_exist P
  refine ⟨need P K true 0 (K + 1) + 1, ?_⟩
  intro H n hn name raw
  have hS := safe_interp hK hN H n
  unfold execute
  cases hc : findCmd P name with
  | none => simp
  | some cmd =>
    have hmem : cmd ∈ P.cmds := List.mem_of_find?_eq_some hc
    simp only
    have hw := safe_wrapParams (f := interp H P n) (d := 0) raw cmd.params (by
      intro p hp e he
      refine hS.1 true 0 e (.inl rfl) ?_
      have := (hK cmd hmem).2 p hp e he
      unfold need at hn ⊢
      omega) [] st0 rfl
    have hs : ∀ st : Stmt F, sizeOf st < K + 1 → Safe 0 ((interp H P n).ex st) := by
      intro st h
      refine hS.2 0 st ?_
      unfold need at hn ⊢
      omega
    rcases hp : wrapParams (interp H P n) raw cmd.params [] st0 with ⟨r, s⟩
    rw [hp] at hw
    cases r with
    | error e => simp only; exact fun h => hw.1 (by simpa using h)
    | ok params =>
      simp only
      have hb := safe_runBody (B := K + 1) hs cmd.body (by have := (hK cmd hmem).1; omega)
        { s with ctx := freshCtx s.depth params } hw.2
      rcases hr : runBody (interp H P n) cmd.body { s with ctx := freshCtx s.depth params } with ⟨r, s'⟩
      rw [hr] at hb
      cases r with
      | error e =>
        cases e with
        | outOfFuel => exact absurd rfl hb.1
        | py e => cases e <;> simp
      | ok u =>
        simp only
        rcases ha : applyHint H cmd s' with ⟨r, s''⟩
        cases r with
        | error e =>
          simp only
          intro h
          simp only [Except.error.injEq] at h
          subst h
          unfold applyHint at ha
          split at ha
          · split at ha <;> simp at ha
          · simp at ha
        | ok u =>
          simp only
          split_ifs <;> simp

/-- Non-vacuity: a recursive program with a default value satisfies the hypothesis. -/
example : DefaultsNoNamed (⟨[⟨"F", [⟨"b", none, some (.call "F" [iLit 1] [])⟩], [.emit (.call "F" [] []) []], none⟩], 7⟩ :
    Prog Int) := by
  intro c hc p hp e he
  simp only [List.mem_singleton] at hc
  subst hc
  simp only [List.mem_singleton] at hp
  subst hp
  simp only [Option.some.injEq] at he
  subst he
  refine NoNamed.call _ _ ?_
  intro a ha
  simp only [List.mem_singleton] at ha
  subst ha
  exact NoNamed.lit _

/-- the call `A(y=1)` -/
def selfCall : Expr Int := .call "A" [] [("y", iLit 1)]

/-- `command A(x = A(y=1), y)` with recursion limit `L` -/
def selfDefault (L : Nat) : Prog Int :=
  ⟨[⟨"A", [⟨"x", none, some selfCall⟩, ⟨"y", none, none⟩], [.emit (.ident "y") []], none⟩], L⟩

/-- C77 (violated): whatever the recursion limit, evaluating `A(y=1)` never ends when the default of `x` is `A(y=1)`
itself: the guard counts calls, and defaults are evaluated before the call is counted. -/
theorem C77_named_default_diverges (L n : Nat) (s : St Int) :
    (interp demoHost (selfDefault L) n).ev selfCall s = (.error .outOfFuel, s) := by
  induction n with
  | zero => rfl
  | succ n ih =>
    show (resolveNamed (interp demoHost (selfDefault L) n) [("y", iLit 1)] _ >>= fun args' =>
      callCommand demoHost (selfDefault L) (interp demoHost (selfDefault L) n) _ args') s = _
    apply bind_err
    show (namedArg (interp demoHost (selfDefault L) n) [("y", iLit 1)] ⟨"x", none, some selfCall⟩ >>= fun v =>
      resolveNamed _ _ _ >>= fun vs => pure (v :: vs)) s = _
    apply bind_err
    exact ih

/-! ### C78 one branch -/

/-- C78: a conditional expression has the outcome of evaluating the condition and then the selected branch only. -/
theorem C78_conditional (H : Host F) (P : Prog F) (n : Nat) (c t e : Expr F) (s s1 : St F) (v : Val F) (b : Bool)
    (hc : (interp H P n).ev c s = (.ok v, s1)) (hb : truthy H v = .ok b) :
    (interp H P (n + 1)).ev (.cond c t e) s = (if b then (interp H P n).ev t s1 else (interp H P n).ev e s1) := by
  have h1 : evTruthy H (interp H P n) c s = (.ok b, s1) := by
    show ((interp H P n).ev c >>= fun v => lift (truthy H v)) s = _
    rw [bind_ok hc, hb]; rfl
  show (evTruthy H (interp H P n) c >>= fun b => if b then (interp H P n).ev t else (interp H P n).ev e) s = _
  rw [bind_ok h1]
  cases b <;> rfl

/-- the branches of an if statement, with the conditions before them -/
def branches (c : Expr F) (thn : List (Stmt F)) (elifs : List (Expr F × List (Stmt F))) : List (Expr F × List (Stmt F)) :=
  (c, thn) :: elifs

/-- C78: an if statement runs the first branch whose condition is true, after evaluating the conditions up to it and no
others, and then none of the other branches. `conds s bs s'`: the conditions of `bs` evaluate to false, from state `s`
to `s'`. -/
inductive AllFalse (H : Host F) (f : Fns F) : St F → List (Expr F × List (Stmt F)) → St F → Prop
  | nil (s) : AllFalse H f s [] s
  | cons (s s1 s2 b bs v) : f.ev b.1 s = (.ok v, s1) → truthy H v = .ok false → AllFalse H f s1 bs s2 →
      AllFalse H f s (b :: bs) s2

theorem elifs_first (H : Host F) (f : Fns F) (els : Option (List (Stmt F))) (pre : List (Expr F × List (Stmt F))) :
    ∀ (b : Expr F × List (Stmt F)) (post) (s s1 s2 : St F) (v : Val F), AllFalse H f s pre s1 → f.ev b.1 s1 = (.ok v, s2) →
      truthy H v = .ok true → runElifs H f els (pre ++ b :: post) s = withScope (runBody f b.2) s2 := by
  induction pre with
  | nil =>
    intro b post s s1 s2 v h1 h2 h3
    cases h1
    have : evTruthy H f b.1 s = (.ok true, s2) := by
      show (f.ev b.1 >>= fun v => lift (truthy H v)) s = _
      rw [bind_ok h2, h3]; rfl
    show (evTruthy H f b.1 >>= fun t => if t then withScope (runBody f b.2) else runElifs H f els post) s = _
    rw [bind_ok this]; rfl
  | cons p pre ih =>
    intro b post s s1 s2 v h1 h2 h3
    cases h1 with
    | cons _ s' _ _ _ w hw ht hr =>
      have : evTruthy H f p.1 s = (.ok false, s') := by
        show (f.ev p.1 >>= fun v => lift (truthy H v)) s = _
        rw [bind_ok hw, ht]; rfl
      show (evTruthy H f p.1 >>= fun t => if t then withScope (runBody f p.2) else runElifs H f els (pre ++ b :: post)) s = _
      rw [bind_ok this]
      exact ih b post s' s1 s2 v hr h2 h3

theorem C78_if_first (H : Host F) (P : Prog F) (n : Nat) (c : Expr F) (thn : List (Stmt F))
    (elifs pre post : List (Expr F × List (Stmt F))) (els : Option (List (Stmt F))) (b : Expr F × List (Stmt F))
    (hbr : branches c thn elifs = pre ++ b :: post) (s s1 s2 : St F) (v : Val F)
    (h1 : AllFalse H (interp H P n) s pre s1) (h2 : (interp H P n).ev b.1 s1 = (.ok v, s2))
    (h3 : truthy H v = .ok true) :
    (interp H P (n + 1)).ex (.ifS c thn elifs els) s = withScope (runBody (interp H P n) b.2) s2 := by
  have := elifs_first H (interp H P n) els pre b post s s1 s2 v h1 h2 h3
  rw [← hbr] at this
  exact this

/-- C78: when every condition is false, the else part runs, or nothing. -/
theorem C78_if_else (H : Host F) (P : Prog F) (n : Nat) (c : Expr F) (thn : List (Stmt F))
    (elifs : List (Expr F × List (Stmt F))) (els : Option (List (Stmt F))) (s s1 : St F)
    (h1 : AllFalse H (interp H P n) s (branches c thn elifs) s1) :
    (interp H P (n + 1)).ex (.ifS c thn elifs els) s = (match els with
      | some ss => withScope (runBody (interp H P n) ss) s1
      | none => (.ok (), s1)) := by
  have key : ∀ (bs : List (Expr F × List (Stmt F))) (s : St F), AllFalse H (interp H P n) s bs s1 →
      runElifs H (interp H P n) els bs s = (match els with
        | some ss => withScope (runBody (interp H P n) ss) s1
        | none => (.ok (), s1)) := by
    intro bs
    induction bs with
    | nil => intro s h; cases h; cases els <;> rfl
    | cons p bs ih =>
      intro s h
      cases h with
      | cons _ s' _ _ _ w hw ht hr =>
        have : evTruthy H (interp H P n) p.1 s = (.ok false, s') := by
          show ((interp H P n).ev p.1 >>= fun v => lift (truthy H v)) s = _
          rw [bind_ok hw, ht]; rfl
        show (evTruthy H (interp H P n) p.1 >>= fun t => if t then withScope (runBody (interp H P n) p.2)
          else runElifs H (interp H P n) els bs) s = _
        rw [bind_ok this]
        exact ih s' hr
  exact key _ s h1

/-- Non-vacuity: the second branch of three is taken; the third condition, which would raise, is not evaluated. -/
example :
    let P : Prog Int := ⟨[], 5⟩
    let r := (interp demoHost P 9).ex (.ifS (.lit (.bool false)) [.emit (iLit 1) []]
      [(.lit (.bool true), [.emit (iLit 2) []]), (.call "boom" [] [], [.emit (iLit 3) []])] none) st0
    r.1 = .ok () ∧ r.2.log = [.emit ⟨.int 2, .prim .int, false⟩ 0] := ⟨rfl, rfl⟩

/-! ### C79 comprehensions -/

/-- results of `m` satisfy `Q` -/
def Post {α : Type} (Q : α → Prop) (m : M F α) : Prop := ∀ s a s', m s = (.ok a, s') → Q a

theorem post_bind {α β : Type} {Q : β → Prop} {m : M F α} {k : α → M F β} (hk : ∀ a, Post Q (k a)) : Post Q (m >>= k) := by
  intro s b s' h
  rcases hm : m s with ⟨r, s1⟩
  cases r with
  | ok a => rw [bind_ok hm] at h; exact hk a s1 b s' h
  | error e => rw [bind_err hm] at h; cases h

theorem post_foldM {α β : Type} {Q : β → Prop} {g : β → α → M F β} (hg : ∀ b a, Q b → Post Q (g b a)) (l : List α) :
    ∀ b, Q b → Post Q (foldM g b l) := by
  induction l with
  | nil => intro b hb s a s' h; cases h; exact hb
  | cons a l ih =>
    intro b hb s c s' h
    replace h : (g b a >>= fun b' => foldM g b' l) s = (.ok c, s') := h
    rcases hm : g b a s with ⟨r, s1⟩
    cases r with
    | ok b' => rw [bind_ok hm] at h; exact ih b' (hg b a hb s b' s1 hm) s1 c s' h
    | error e => rw [bind_err hm] at h; cases h

theorem comp_size (H : Host F) (f : Fns F) (elem : Expr F) (cs : List (String × Expr F × List (Expr F))) :
    ∀ acc, acc.length ≤ compMaxSize → Post (fun l => l.length ≤ compMaxSize) (compClauses H f elem cs acc) := by
  induction cs with
  | nil =>
    intro acc hacc
    unfold compClauses
    split_ifs with h
    · intro s a s' h; cases h
    · exact post_bind (fun v s a s' h' => by cases h'; simp; omega)
  | cons c cs ih =>
    intro acc hacc
    unfold compClauses
    refine post_bind (fun it => ?_)
    cases iterItems H it.data with
    | none => intro s a s' h; cases h
    | some items =>
      refine post_foldM (fun b d hb => ?_) items acc hacc
      split_ifs with h
      · intro s a s' h; cases h
      · refine post_bind (fun _ => post_bind (fun ok => ?_))
        split_ifs
        · exact ih b hb
        · intro s a s' h; cases h; exact hb

/-- C79: the value of a comprehension is a list of at most 100000 elements, however many clauses and items there are. -/
theorem C79_size_limit (H : Host F) (P : Prog F) (n : Nat) (elem : Expr F)
    (cs : List (String × Expr F × List (Expr F))) (s s' : St F) (v : Val F)
    (h : (interp H P n).ev (.comp elem cs) s = (.ok v, s')) : ∃ l, v.data = .list l ∧ l.length ≤ 100000 := by
  cases n with
  | zero => cases h
  | succ n =>
    replace h : evComp H (interp H P n) elem cs s = (.ok v, s') := h
    unfold evComp at h
    split_ifs at h with hd
    · cases h
    · rcases hm : withScope (compClauses H (interp H P n) elem cs []) s with ⟨r, s1⟩
      cases r with
      | error e => rw [bind_err hm] at h; cases h
      | ok vs =>
        rw [bind_ok hm] at h
        have hv : compVal vs = v := by cases h; rfl
        have hl : vs.length ≤ compMaxSize := by
          unfold withScope fin at hm
          simp only [Prod.mk.injEq] at hm
          rcases hc : compClauses H (interp H P n) elem cs []
            { s with ctx := { s.ctx with frames := [] :: s.ctx.frames } } with ⟨r2, s2⟩
          rw [hc] at hm
          have := hm.1
          simp only at this
          subst this
          exact comp_size H _ elem cs [] (Nat.zero_le _) _ _ _ hc
        subst hv
        cases vs with
        | nil => exact ⟨[], rfl, by simp⟩
        | cons w ws => exact ⟨_, rfl, by simpa [compMaxSize] using hl⟩

/-- C79: a comprehension with more than four clauses is refused before anything is evaluated. -/
theorem C79_depth_limit (H : Host F) (P : Prog F) (n : Nat) (elem : Expr F)
    (cs : List (String × Expr F × List (Expr F))) (s : St F) (h : 4 < cs.length) :
    (interp H P (n + 1)).ev (.comp elem cs) s =
      (.error (.py (.rt "List comprehension nesting depth exceeds maximum")), s) := by
  show evComp H (interp H P n) elem cs s = _
  unfold evComp
  rw [if_pos (by unfold compMaxDepth; exact h)]
  rfl

/-- Non-vacuity: `[i + 1 for i in 0..3]`. -/
example :
    let P : Prog Int := ⟨[], 5⟩
    ((interp demoHost P 9).ev (.comp (.bin .plus (.ident "i") (iLit 1)) [("i", .range (iLit 0) (iLit 3), [])]) st0).1 =
      .ok ⟨.list [.int 1, .int 2, .int 3], .list (.prim .int), false⟩ := rfl

/-! ### C80 command results -/

theorem callCommand_emitted (H : Host F) (P : Prog F) (f : Fns F) (cmd : Cmd F) (args : List (Val F)) (s s' : St F)
    (v : Val F) (h : callCommand H P f cmd args s = (.ok v, s')) : v.emitted = true := by
  unfold callCommand at h
  split_ifs at h with hl
  · simp at h
  have hb : ∀ params, Post (fun v => v.emitted = true) (inNewCtx H f cmd params) := by
    intro params s a s' h
    unfold inNewCtx fin at h
    rcases hc : cmdBody H f cmd { s with ctx := freshCtx s.depth params } with ⟨r, s2⟩
    rw [hc] at h
    simp only [Prod.mk.injEq] at h
    have h1 := h.1
    subst h1
    have : Post (fun v => v.emitted = true) (cmdBody H f cmd) := by
      refine post_bind (fun _ => post_bind (fun _ => post_bind (fun _ => ?_)))
      intro s a s' h
      unfold emittedVal at h
      split at h
      · simp only [Prod.mk.injEq, Except.ok.injEq] at h; rw [← h.1]
      · simp at h
    exact this _ _ _ hc
  have hq : Post (fun v => v.emitted = true) (callBody H f cmd args) := by
    unfold callBody
    split_ifs
    · intro s a s' h; cases h
    · exact post_bind (fun params => hb params)
  unfold fin at h
  rcases hc : callBody H f cmd args { s with depth := s.depth + 1 } with ⟨r, s2⟩
  rw [hc] at h
  simp only [Prod.mk.injEq] at h
  have h1 := h.1
  subst h1
  exact hq _ _ _ hc

/-- C80 (violated): the value of a command call can never be used as a condition: whatever the command emits, asking
for its truth value raises an exception other than RuntimeError. -/
theorem C80_call_as_condition (H : Host F) (P : Prog F) (f : Fns F) (cmd : Cmd F) (args : List (Val F)) (s s' : St F)
    (v : Val F) (h : callCommand H P f cmd args s = (.ok v, s')) : truthy H v = .error (.other "AttributeError") := by
  unfold truthy
  rw [callCommand_emitted H P f cmd args s s' v h]
  rfl

/-- C80 (violated), a run: `require OK()` where `OK` emits `true` escapes from `execute` as an exception. -/
theorem C80_require_escapes :
    let P : Prog Int := ⟨[⟨"OK", [], [.emit (.lit (.bool true)) []], none⟩,
      ⟨"MAIN", [], [.require (.call "OK" [] []) none, .emit (iLit 1) []], none⟩], 5⟩
    (execute demoHost P 9 "MAIN" []).1 = .error (.py (.other "AttributeError")) := rfl

/-- C80 (partial): the data and type of a command call's value are those emitted. -/
theorem C80_value_partial :
    let P : Prog Int := ⟨[⟨"TWO", [], [.emit (iLit 2) []], none⟩], 5⟩
    ((interp demoHost P 9).ev (.bin .plus (.call "TWO" [] []) (iLit 3)) st0).1 =
      .ok ⟨.int 5, .prim .int, false⟩ := rfl

/-! ### C81 embedded Python -/

theorem dget_foldl_dset (f : Frame F) (hn : (keys f).Nodup) : ∀ (ns : List (String × Data F)) (x : String),
    dget (f.foldl (fun ns p => dset ns p.1 p.2.data) ns) x =
      (match dget f x with
      | some v => some v.data
      | none => dget ns x) := by
  induction f with
  | nil => intro ns x; rfl
  | cons p f ih =>
    intro ns x
    obtain ⟨k, v⟩ := p
    simp only [keys, List.map_cons, List.nodup_cons] at hn
    rw [List.foldl_cons, ih hn.2]
    simp only [dget]
    by_cases hk : k = x
    · subst hk
      have : dget f k = none := dget_none.mpr hn.1
      rw [this]
      simp [dget_dset]
    · simp only [hk, if_false]
      cases dget f x with
      | some w => rfl
      | none => simp [dget_dset, Ne.symm hk]

theorem namespace_outer (fs : List (Frame F)) (hn : ∀ f ∈ fs, (keys f).Nodup) : ∀ (ns : List (String × Data F)) (x : String),
    dget (fs.foldl (fun ns f => f.foldl (fun ns p => dset ns p.1 p.2.data) ns) ns) x =
      (match lookup fs.reverse x with
      | some v => some v.data
      | none => dget ns x) := by
  have happ : ∀ (a b : List (Frame F)) (x : String), lookup (a ++ b) x = (match lookup a x with
      | some v => some v
      | none => lookup b x) := by
    intro a b x
    induction a with
    | nil => rfl
    | cons f a ih =>
      simp only [List.cons_append, lookup]
      cases dget f x with
      | some v => rfl
      | none => simpa using ih
  induction fs with
  | nil => intro ns x; rfl
  | cons f fs ih =>
    intro ns x
    rw [List.foldl_cons, ih (fun g hg => hn g (List.mem_cons_of_mem _ hg)), List.reverse_cons, happ,
      dget_foldl_dset f (hn f (by simp))]
    cases lookup fs.reverse x with
    | some v => rfl
    | none =>
      simp only [lookup]
      cases dget f x <;> rfl

/-- C81 (violated): embedded Python sees the OUTERMOST binding of each name. -/
theorem C81_outermost (fs : List (Frame F)) (hn : ∀ f ∈ fs, (keys f).Nodup) (x : String) :
    dget (namespaceOf fs) x = (lookup fs.reverse x).map (·.data) := by
  unfold namespaceOf
  rw [namespace_outer fs hn]
  cases lookup fs.reverse x <;> rfl

theorem lookup_unique (a b : List (Frame F)) (f : Frame F) (x : String) (ha : ∀ g ∈ a, x ∉ keys g)
    (_hb : ∀ g ∈ b, x ∉ keys g) (hx : x ∈ keys f) : lookup (a ++ f :: b) x = dget f x := by
  induction a with
  | nil =>
    simp only [List.nil_append, lookup]
    cases h : dget f x with
    | some v => rfl
    | none => exact absurd hx (dget_none.mp h)
  | cons g a ih =>
    simp only [List.cons_append, lookup]
    rw [dget_none.mpr (ha g (by simp))]
    exact ih (fun g hg => ha g (List.mem_cons_of_mem _ hg))

/-- C81 (partial): a name bound in just one scope has in embedded Python the value it has in the DSL. Missing: shadowed
names, for which the outermost binding is seen instead. -/
theorem C81_partial (a b : List (Frame F)) (f : Frame F) (hn : ∀ g ∈ a ++ f :: b, (keys g).Nodup) (x : String)
    (ha : ∀ g ∈ a, x ∉ keys g) (hb : ∀ g ∈ b, x ∉ keys g) (hx : x ∈ keys f) :
    dget (namespaceOf (a ++ f :: b)) x = (lookup (a ++ f :: b) x).map (·.data) := by
  rw [C81_outermost _ hn, lookup_unique a b f x ha hb hx]
  rw [List.reverse_append, List.reverse_cons, List.append_assoc]
  rw [show [f] ++ a.reverse = f :: a.reverse from rfl]
  rw [lookup_unique b.reverse a.reverse f x (fun g hg => hb g (List.mem_reverse.mp hg))
    (fun g hg => ha g (List.mem_reverse.mp hg)) hx]

/-- C81 (violated), a run: with `x = 1` outside and `x = 2` in a block, Python code in the block computes with 1. -/
theorem C81_shadow_ignored :
    let P : Prog Int := ⟨[⟨"F", [], [.letS "x" (iLit 1),
      .block [.letS "x" (iLit 2), .emit (.list [.ident "x", .py 0 (.prim .int)]) []]], none⟩], 5⟩
    (execute demoHost P 9 "F" []).1 =
      .ok { success := true, emit := some (⟨.list [.int 2, .int 1], .list (.prim .int), false⟩, []) } := rfl

/-! ### C82, C83 failures that are not reported -/

/-- C82 (violated): assigning to a variable that does not exist records an error, but the run goes on and reports
success. -/
theorem C82_undefined_assignment_succeeds :
    let P : Prog Int := ⟨[⟨"F", [], [.assign "nope" (iLit 1), .emit (iLit 2) []], none⟩], 5⟩
    (execute demoHost P 9 "F" []).1 = .ok { success := true, emit := some (⟨.int 2, .prim .int, false⟩, []) } ∧
    (execute demoHost P 9 "F" []).2.ctx.diags = ["nope"] := ⟨rfl, rfl⟩

/-- C82 (partial): the assignment changes no variable. -/
theorem C82_no_change_partial (H : Host F) (P : Prog F) (n : Nat) (x : String) (e : Expr F) (s s1 : St F) (v : Val F)
    (he : (interp H P n).ev e s = (.ok v, s1)) (hx : lookup s1.ctx.frames x = none) :
    ∃ s2, (interp H P (n + 1)).ex (.assign x e) s = (.ok (), s2) ∧ s2.ctx.frames = s1.ctx.frames ∧
      s2.ctx.diags = s1.ctx.diags ++ [x] := by
  have h1 : (interp H P (n + 1)).ex (.assign x e) s = assignVar x v s1 := bind_ok he
  have hu : update s1.ctx.frames x v = none := (update_spec _ _ _).1.mpr hx
  rw [h1]
  unfold assignVar modCtx
  simp only [hu]
  exact ⟨_, rfl, rfl, rfl⟩

/-- C83 (violated): a requirement that fails in a called command does not reach the result. -/
theorem C83_nested_requirement_lost :
    let P : Prog Int := ⟨[⟨"PART", [], [.require (.lit (.bool false)) (some "too thin"), .emit (iLit 1) []], none⟩,
      ⟨"MAIN", [], [.emit (.call "PART" [] []) []], none⟩], 5⟩
    ∃ r, (execute demoHost P 9 "MAIN" []).1 = .ok r ∧ r.success = true ∧ r.fails = [] := ⟨_, rfl, rfl, rfl⟩

/-- C83 (partial): the failed requirements reported are all those of the command itself, in the order in which they
were met: execution goes on after each. Missing: those of called commands. -/
theorem C83_all_reported_partial (H : Host F) (P : Prog F) (n : Nat) (name : String) (raw : List (String × Data F))
    (cmd : Cmd F) (hc : findCmd P name = some cmd) (params : List (String × Val F)) (s s' : St F)
    (hp : wrapParams (interp H P n) raw cmd.params [] st0 = (.ok params, s))
    (hb : afterBody H P n cmd params s = (.ok (), s')) (r : Result F) (hr : (execute H P n name raw).1 = .ok r) :
    ∃ l, s'.log = s.log ++ l ∧ (r.fails = failsAt s.depth l) := by
  have hL := pres_runBody (good_LR P) (pres_interp (good_LR P) H n).2 cmd.body { s with ctx := freshCtx s.depth params }
  unfold afterBody at hb
  unfold execute at hr
  rw [hc] at hr
  simp only [hp] at hr
  rw [hb] at hL hr
  obtain ⟨_, _, h3⟩ := hL
  obtain ⟨l, h4, _, _, h5, _⟩ := h3 (Nat.le_refl _)
  simp only [freshCtx, List.nil_append] at h4 h5
  refine ⟨l, h4, ?_⟩
  obtain ⟨c, hc1, _, hc3, _⟩ := applyHint_state H cmd s'
  rcases ha : applyHint H cmd s' with ⟨ra, sa⟩
  rw [ha] at hc1
  simp only at hc1
  subst hc1
  simp only [ha] at hr
  cases ra with
  | error e => simp at hr
  | ok u =>
    simp only [hc3] at hr
    rw [← h5]
    split_ifs at hr with h7 h8
    · simp only [Except.ok.injEq] at hr; subst hr; rfl
    · have : s'.ctx.fails = [] := by simpa using h7
      simp only [Except.ok.injEq] at hr; subst hr; rw [this]
    · have : s'.ctx.fails = [] := by simpa using h7
      simp only [Except.ok.injEq] at hr; subst hr; rw [this]

/-! ### C84 type tags -/

/-- the data is of the kind the scalar type says -/
def Tagged (v : Val F) : Prop :=
  match v.ty with
  | .prim .int => ∃ n, v.data = .int n
  | .prim .float => ∃ x, v.data = .flt x
  | .prim .bool => ∃ b, v.data = .bool b
  | .prim .string => ∃ t, v.data = .str t
  | _ => True

/-- expressions made of literals, variables, operators and conditionals -/
inductive Scalar : Expr F → Prop
  | lit (l) : Scalar (.lit l)
  | ident (x) : Scalar (.ident x)
  | bin (op a b) : Scalar a → Scalar b → Scalar (.bin op a b)
  | un (op a) : Scalar a → Scalar (.un op a)
  | cond (c t e) : Scalar c → Scalar t → Scalar e → Scalar (.cond c t e)

theorem tagged_int (H : Host F) (d : Data F) (v : Val F) (h : intVal H d = .ok v) : Tagged v := by
  unfold intVal at h
  cases hi : toInt H d with
  | error e => rw [hi] at h; cases h
  | ok n => rw [hi] at h; cases h; exact ⟨n, rfl⟩

theorem tagged_float (H : Host F) (d : Data F) (v : Val F) (h : floatVal H d = .ok v) : Tagged v := by
  unfold floatVal at h
  cases hi : toFloat H d with
  | error e => rw [hi] at h; cases h
  | ok n => rw [hi] at h; cases h; exact ⟨n, rfl⟩

theorem tagged_bool (b : Bool) : Tagged (boolVal b : Val F) := ⟨b, rfl⟩

theorem tagged_num (H : Host F) (l r : Val F) (d : Data F) (v : Val F) (h : numResult H l r d = .ok v) : Tagged v := by
  unfold numResult at h
  split_ifs at h
  · exact tagged_int H d v h
  · exact tagged_float H d v h

theorem tagged_bin (H : Host F) (op : Op) (l r v : Val F) (h : opVal H op l r = .ok v) : Tagged v := by
  have hlogic : ∀ op, logicVal H op l r = .ok v → Tagged v := by
    intro op h
    unfold logicVal at h
    cases hl : truthy H l with
    | error e => rw [hl] at h; cases h
    | ok b =>
      rw [hl] at h
      simp only at h
      cases hr : truthy H r <;> rw [hr] at h <;> simp only [Except.map] at h <;> (split at h) <;>
        (first | (split_ifs at h <;> (first | (cases h; exact tagged_bool _) | cases h)))
  have harith : ∀ op d, arithVal H op l r d = .ok v → Tagged v := by
    intro op d h
    unfold arithVal at h
    split at h
    · exact tagged_float H d v h
    · exact tagged_int H d v h
    · split_ifs at h
      · exact tagged_int H d v h
      · exact tagged_float H d v h
    · exact tagged_num H l r d v h
  have hplus : plusOp H l r = .ok v → Tagged v := by
    intro h
    unfold plusOp at h
    split_ifs at h with h1 h2
    · cases h; exact ⟨_, rfl⟩
    · have hty : v.ty = l.ty := by
        split at h
        · cases h; rfl
        · split at h
          · cases h; rfl
          · cases h
      unfold Tagged
      rw [hty]
      cases hl : l.ty <;> simp_all [isListTy]
    · cases hd : dataOp H .plus l.data r.data with
      | error e => rw [hd] at h; cases h
      | ok d => rw [hd] at h; exact tagged_num H l r d v h
  have hrest : ∀ op, binVal H op l r = .ok v → Tagged v := by
    intro op h
    have ha : ∀ op, (match dataOp H op l.data r.data with
        | .ok d => arithVal H op l r d
        | .error e => .error e) = .ok v → Tagged v := by
      intro op h
      cases hd : dataOp H op l.data r.data with
      | error e => rw [hd] at h; cases h
      | ok d => rw [hd] at h; exact harith op d h
    have hcmp : ∀ op, (match dataCmp H op l.data r.data with
        | .ok b => .ok (boolVal b)
        | .error e => .error e : Except Err (Val F)) = .ok v → Tagged v := by
      intro op h
      cases hd : dataCmp H op l.data r.data with
      | error e => rw [hd] at h; cases h
      | ok b => rw [hd] at h; cases h; exact tagged_bool b
    cases op <;> unfold binVal at h <;>
      first | exact hplus h | exact ha _ h | exact hcmp _ h | (cases h; exact tagged_bool _)
  unfold opVal at h
  split at h
  · exact hlogic _ h
  · exact hlogic _ h
  · exact hrest _ h

theorem tagged_un (H : Host F) (op : UOp) (v w : Val F) (h : unVal H op v = .ok w) : Tagged w := by
  unfold unVal at h
  cases op with
  | minus =>
    simp only at h
    cases hd : dataNeg H v.data with
    | error e => rw [hd] at h; cases h
    | ok d =>
      rw [hd] at h
      simp only at h
      split_ifs at h
      · exact tagged_int H d w h
      · exact tagged_float H d w h
  | not =>
    simp only at h
    cases hd : truthy H v with
    | error e => rw [hd] at h; cases h
    | ok b => rw [hd] at h; cases h; exact tagged_bool _

/-- a scalar expression changes no state -/
theorem scalar_state (H : Host F) (P : Prog F) (n : Nat) : ∀ (e : Expr F), Scalar e → ∀ s, (((interp H P n).ev e) s).2 = s := by
  induction n with
  | zero => intro e _ s; rfl
  | succ n ih =>
    have hb : ∀ {α β : Type} (m : M F α) (k : α → M F β), (∀ s, (m s).2 = s) → (∀ a s, (k a s).2 = s) →
        ∀ s, ((m >>= k) s).2 = s := by
      intro α β m k hm hk s
      have h1 := hm s
      rcases h : m s with ⟨r, s'⟩
      rw [h] at h1
      simp only at h1
      subst h1
      cases r with
      | ok a => rw [bind_ok h]; exact hk a _
      | error e => rw [bind_err h]
    intro e he
    cases he with
    | lit l => intro s; rfl
    | ident x =>
      intro s
      show (evIdent x s).2 = s
      unfold evIdent
      cases lookup s.ctx.frames x <;> rfl
    | bin op a b ha hb' => exact hb _ _ (ih a ha) (fun _ => hb _ _ (ih b hb') (fun _ _ => rfl))
    | un op a ha => exact hb _ _ (ih a ha) (fun _ _ => rfl)
    | cond c t e hc ht he =>
      refine hb _ _ (hb _ _ (ih c hc) (fun _ _ => rfl)) (fun b => ?_)
      cases b
      · exact ih e he
      · exact ih t ht

/-- C84 (partial): when every visible variable's data is of the kind its type says, so is the value of every expression
of literals, variables, operators and conditionals. Missing: list elements, parameters and host results. -/
theorem C84_scalar_tagged_partial (H : Host F) (P : Prog F) (n : Nat) : ∀ (e : Expr F), Scalar e → ∀ (s s' : St F)
    (v : Val F), (∀ x w, lookup s.ctx.frames x = some w → Tagged w) → (interp H P n).ev e s = (.ok v, s') → Tagged v := by
  induction n with
  | zero => intro e _ s s' v _ h; cases h
  | succ n ih =>
    intro e he s s' v hv h
    cases he with
    | lit l => cases h; cases l <;> exact ⟨_, rfl⟩
    | ident x =>
      replace h : evIdent x s = (.ok v, s') := h
      unfold evIdent at h
      cases hl : lookup s.ctx.frames x with
      | none => rw [hl] at h; cases h
      | some w => rw [hl] at h; cases h; exact hv x v hl
    | bin op a b ha hb =>
      have : Post Tagged ((interp H P n).ev a >>= fun l => (interp H P n).ev b >>= fun r => lift (opVal H op l r)) := by
        refine post_bind (fun l => post_bind (fun r => ?_))
        intro s w s' h
        cases ho : opVal H op l r with
        | error e => rw [ho] at h; cases h
        | ok u => rw [ho] at h; cases h; exact tagged_bin H op l r _ ho
      exact this _ _ _ h
    | un op a ha =>
      have : Post Tagged ((interp H P n).ev a >>= fun l => lift (unVal H op l)) := by
        refine post_bind (fun l => ?_)
        intro s w s' h
        cases ho : unVal H op l with
        | error e => rw [ho] at h; cases h
        | ok u => rw [ho] at h; cases h; exact tagged_un H op l _ ho
      exact this _ _ _ h
    | cond c t e hc ht he =>
      replace h : (evTruthy H (interp H P n) c >>= fun b => if b then (interp H P n).ev t else (interp H P n).ev e) s =
        (.ok v, s') := h
      rcases hm : evTruthy H (interp H P n) c s with ⟨r, s1⟩
      have hs1 : s1 = s := by
        have h2 := scalar_state H P n c hc s
        unfold evTruthy at hm
        rcases hq : (interp H P n).ev c s with ⟨rq, sq⟩
        rw [hq] at h2
        simp only at h2
        subst h2
        cases rq with
        | error e => rw [bind_err hq] at hm; cases hm; rfl
        | ok w => rw [bind_ok hq] at hm; cases hm; rfl
      subst hs1
      cases r with
      | error e => rw [bind_err hm] at h; cases h
      | ok b =>
        rw [bind_ok hm] at h
        cases b with
        | true => exact ih t ht _ _ v hv h
        | false => exact ih e he _ _ v hv h

/-- C84 (violated): a list takes its element type from the first element, so `[1, 2.5][1]` is a float tagged as int, and
adding 1 to it gives 3 instead of 3.5. -/
theorem C84_mixed_list_truncates :
    let P : Prog Int := ⟨[], 5⟩
    let e : Expr Int := .index (.list [iLit 1, .lit (.flt 25)]) (iLit 1)
    ((interp demoHost P 9).ev e st0).1 = .ok ⟨.flt 25, .prim .int, false⟩ ∧
    ((interp demoHost P 9).ev (.bin .plus e (iLit 1)) st0).1 = .ok ⟨.int 3, .prim .int, false⟩ ∧
    ((interp demoHost P 9).ev (.bin .plus (.lit (.flt 25)) (iLit 1)) st0).1 = .ok ⟨.flt 35, .prim .float, false⟩ :=
  ⟨rfl, rfl, rfl⟩

/-! ### C85 integer arithmetic -/

/-- an integer value -/
def iv (n : Int) : Val F := ⟨.int n, .prim .int, false⟩

/-- C85: sums, differences and products of integers are exact integers of any size. -/
theorem C85_exact (H : Host F) (a b : Int) :
    opVal H .plus (iv a) (iv b) = .ok (iv (a + b)) ∧ opVal H .minus (iv a) (iv b) = .ok (iv (a - b)) ∧
    opVal H .star (iv a) (iv b) = .ok (iv (a * b)) := ⟨rfl, rfl, rfl⟩

/-- C85: integer quotient and remainder belong together: `a = b * (a // b) + a % b`, and the remainder lies between
zero and the divisor, on the divisor's side. -/
theorem C85_div_mod (H : Host F) (a b : Int) (hb : b ≠ 0) :
    ∃ q r, opVal H .dslash (iv a) (iv b) = .ok (iv q) ∧ opVal H .percent (iv a) (iv b) = .ok (iv r) ∧
      a = b * q + r ∧ (0 < b → 0 ≤ r ∧ r < b) ∧ (b < 0 → b < r ∧ r ≤ 0) := by
  refine ⟨Int.fdiv a b, Int.fmod a b, ?_, ?_, (Int.mul_fdiv_add_fmod a b).symm, ?_, ?_⟩
  · show (match (if b = 0 then _ else _ : Except Err (Data F)) with | .ok d => _ | .error e => _) = _
    rw [if_neg hb]; rfl
  · show (match (if b = 0 then _ else _ : Except Err (Data F)) with | .ok d => _ | .error e => _) = _
    rw [if_neg hb]; rfl
  · intro h
    exact ⟨Int.fmod_nonneg_of_pos a h, Int.fmod_lt_of_pos a h⟩
  · intro h
    have h1 := Int.fmod_nonneg_of_pos (-a) (b := -b) (by omega)
    have h2 := Int.fmod_lt_of_pos (-a) (b := -b) (by omega)
    rw [Int.neg_fmod_neg] at h1 h2
    omega

/-- C85: an exact power for a non-negative exponent; division by zero always raises. -/
theorem C85_pow_zero (H : Host F) (a b : Int) :
    (0 ≤ b → opVal H .dstar (iv a) (iv b) = .ok (iv (a ^ b.toNat))) ∧
    (∀ op ∈ [Op.slash, Op.percent, Op.dslash], opVal H op (iv a) (iv 0) = .error (.other "ZeroDivisionError")) := by
  constructor
  · intro h
    have h1 : dataOp H .dstar (iv a : Val F).data (iv b : Val F).data = .ok (.int (a ^ b.toNat)) := if_pos h
    have h2 : (bothInt (iv a : Val F) (iv b) && nonneg H (iv b : Val F).data) = true := by
      simp [bothInt, nonneg, asInt, iv, h]
    show binVal H .dstar (iv a) (iv b) = _
    simp only [binVal, h1, arithVal, h2, if_true]
    rfl
  · intro op hop
    simp only [List.mem_cons, List.not_mem_nil, or_false] at hop
    rcases hop with rfl | rfl | rfl <;> rfl

end Verif.Interp
