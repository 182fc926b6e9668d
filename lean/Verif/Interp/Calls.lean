import Verif.Interp.Props2

/-! C135: what a called command sees; C136: which arm of a match runs. -/

namespace Verif.Interp
open Verif.Dict

variable {F : Type}

/-! ### C135 -/

theorem bindArgs_keys (ps : List (Param F)) : ∀ (args : List (Val F)) (d : List (String × Val F)) (x : String),
    x ∉ ps.map (·.name) → dget ((ps.zip args).foldl (fun d p => dset d p.1.name p.2) d) x = dget d x := by
  induction ps with
  | nil => intro args d x _; rfl
  | cons p ps ih =>
    intro args d x hx
    simp only [List.map_cons, List.mem_cons, not_or] at hx
    cases args with
    | nil => rfl
    | cons a args =>
      simp only [List.zip_cons_cons, List.foldl_cons]
      rw [ih args _ x hx.2, dget_dset, if_neg hx.1]

theorem bindArgs_get (ps : List (Param F)) : ∀ (args : List (Val F)) (d : List (String × Val F)),
    (ps.map (·.name)).Nodup → ∀ (i : Nat) (p : Param F) (a : Val F), ps[i]? = some p → args[i]? = some a →
    dget ((ps.zip args).foldl (fun d p => dset d p.1.name p.2) d) p.name = some a := by
  induction ps with
  | nil => intro args d _ i p a h; simp at h
  | cons q ps ih =>
    intro args d hn i p a hp ha
    simp only [List.map_cons, List.nodup_cons] at hn
    cases args with
    | nil => simp at ha
    | cons b args =>
      simp only [List.zip_cons_cons, List.foldl_cons]
      cases i with
      | zero =>
        simp at hp ha
        subst hp ha
        rw [bindArgs_keys ps args _ _ hn.1, dget_dset, if_pos rfl]
      | succ i =>
        simp at hp ha
        exact ih args _ hn.2 i p a hp ha

/-- C135: a command called with one argument per parameter runs with a scope of its own in which the i-th parameter is
the i-th argument and nothing else is visible; when it is done the caller's context is what it was. -/
theorem C135_binds_by_position (H : Host F) (P : Prog F) (f : Fns F) (cmd : Cmd F) (args : List (Val F)) (s : St F)
    (hd : s.depth < P.limit) (hlen : args.length = cmd.params.length) (hn : (cmd.params.map (·.name)).Nodup) :
    ∃ scope : List (String × Val F),
      callCommand H P f cmd args s =
        (let r := cmdBody H f cmd { s with depth := s.depth + 1, ctx := freshCtx (s.depth + 1) scope }
         (r.1, { r.2 with ctx := s.ctx, depth := r.2.depth - 1 })) ∧
      (∀ (i : Nat) (p : Param F) (a : Val F), cmd.params[i]? = some p → args[i]? = some a → lookup (freshCtx (s.depth + 1) scope).frames p.name = some a) ∧
      (∀ x, x ∉ cmd.params.map (·.name) → lookup (freshCtx (s.depth + 1) scope).frames x = none) := by
  have hr : (cmd.params.filter fun p => p.default.isNone).length ≤ cmd.params.length := List.length_filter_le _ _
  have hlk : ∀ (d : List (String × Val F)) x, lookup [d] x = dget d x := by
    intro d x; simp only [lookup]; cases dget d x <;> rfl
  refine ⟨bindArgs cmd.params args, ?_, ?_, ?_⟩
  · unfold callCommand
    rw [if_neg (by omega)]
    unfold fin callBody
    rw [if_neg (by unfold requiredCount; omega), hlen, List.drop_length]
    rw [bind_ok (m := fillDefaults f [] (bindArgs cmd.params args)) rfl]
    rfl
  · intro i p a hp ha
    show lookup [bindArgs cmd.params args] p.name = some a
    rw [hlk]
    exact bindArgs_get cmd.params args [] hn i p a hp ha
  · intro x hx
    show lookup [bindArgs cmd.params args] x = none
    rw [hlk]
    exact bindArgs_keys cmd.params args [] x hx

/-- C135: a call with fewer arguments than there are parameters without default, or with more than there are parameters,
is an error and has no effect. -/
theorem C135_wrong_count (H : Host F) (P : Prog F) (f : Fns F) (cmd : Cmd F) (args : List (Val F)) (s : St F)
    (h : args.length < (cmd.params.filter fun p => p.default.isNone).length ∨ cmd.params.length < args.length) :
    (∃ m, (callCommand H P f cmd args s).1 = .error (.py (.rt m))) ∧ (callCommand H P f cmd args s).2 = s := by
  unfold callCommand
  by_cases hl : P.limit < s.depth + 1
  · rw [if_pos hl]; exact ⟨⟨_, rfl⟩, rfl⟩
  · rw [if_neg hl]
    unfold fin callBody
    rw [if_pos (by unfold requiredCount; exact h)]
    exact ⟨⟨_, rfl⟩, rfl⟩

/-- C135: a parameter whose argument is missing gets the value of its default expression (here: the last one). -/
theorem C135_default (H : Host F) (P : Prog F) (f : Fns F) (cmd : Cmd F) (ps : List (Param F)) (p : Param F) (e : Expr F)
    (args : List (Val F)) (s s1 : St F) (v : Val F) (hps : cmd.params = ps ++ [p]) (hp : p.default = some e)
    (hlen : args.length = ps.length) (hd : s.depth < P.limit) (hn : (cmd.params.map (·.name)).Nodup)
    (he : f.ev e { s with depth := s.depth + 1 } = (.ok v, s1)) :
    ∃ scope : List (String × Val F),
      callCommand H P f cmd args s =
        (let r := cmdBody H f cmd { s1 with ctx := freshCtx s1.depth scope }
         (r.1, { r.2 with ctx := s1.ctx, depth := r.2.depth - 1 })) ∧
      lookup (freshCtx s1.depth scope).frames p.name = some v ∧
      (∀ (i : Nat) (q : Param F) (a : Val F), ps[i]? = some q → args[i]? = some a → lookup (freshCtx s1.depth scope).frames q.name = some a) := by
  have hr : (cmd.params.filter fun p => p.default.isNone).length ≤ ps.length := by
    rw [hps, List.filter_append]
    simp [hp, List.length_filter_le]
  have hlk : ∀ (d : List (String × Val F)) x, lookup [d] x = dget d x := by
    intro d x; simp only [lookup]; cases dget d x <;> rfl
  have hzip : bindArgs cmd.params args = bindArgs ps args := by
    unfold bindArgs
    rw [hps]
    congr 1
    rw [show args = args ++ [] by simp, List.zip_append hlen.symm]
    simp
  rw [hps, List.map_append, List.nodup_append] at hn
  obtain ⟨hn1, -, hn3⟩ := hn
  refine ⟨dset (bindArgs ps args) p.name v, ?_, ?_, ?_⟩
  · unfold callCommand
    rw [if_neg (by omega)]
    unfold fin callBody
    have hlt : cmd.params.length = ps.length + 1 := by rw [hps]; simp
    rw [if_neg (by unfold requiredCount; omega), hlen, hzip]
    have hdrop : cmd.params.drop ps.length = [p] := by rw [hps]; simp
    rw [hdrop]
    have hfill : fillDefaults f [p] (bindArgs ps args) { s with depth := s.depth + 1 } =
        (.ok (dset (bindArgs ps args) p.name v), s1) := by
      unfold fillDefaults
      simp only [hp]
      rw [bind_ok he]
      rfl
    rw [bind_ok hfill]
    rfl
  · show lookup [dset (bindArgs ps args) p.name v] p.name = some v
    rw [hlk, dget_dset, if_pos rfl]
  · intro i q a hq ha
    show lookup [dset (bindArgs ps args) p.name v] q.name = some a
    have hne : q.name ≠ p.name := by
      refine hn3 q.name ?_ p.name (by simp)
      exact List.mem_map_of_mem (List.mem_of_getElem? hq)
    rw [hlk, dget_dset, if_neg hne]
    exact bindArgs_get ps args [] hn1 i q a hq ha

/-- Non-vacuity: `F(x, y = 7)` emitting its second parameter, called with one, two, none and three arguments. -/
example :
    let P : Prog Int := ⟨[⟨"F", [⟨"x", none, none⟩, ⟨"y", none, some (iLit 7)⟩], [.emit (.ident "y") []], none⟩], 5⟩
    let run (as : List (Expr Int)) := ((interp demoHost P 9).ev (.call "F" as []) st0).1
    run [iLit 1] = .ok ⟨.int 7, .prim .int, true⟩ ∧ run [iLit 1, iLit 2] = .ok ⟨.int 2, .prim .int, true⟩ ∧
    run [] = .error (.py (.rt "wrong number of arguments")) ∧
    run [iLit 1, iLit 2, iLit 3] = .error (.py (.rt "wrong number of arguments")) := ⟨rfl, rfl, rfl, rfl⟩

/-! ### C136 -/

/-- Specification: the pattern does not match the value: it is of a kind the interpreter does not support, or a literal
different from the value. -/
def Mismatch (H : Host F) (p : Pat F) (v : Val F) : Prop :=
  p = .other ∨ ∃ d, p = .lit d ∧ dataEq H v.data d = false

theorem runArms_skip (H : Host F) (f : Fns F) (v : Val F) (pre : List (Pat F × Expr F)) (rest : List (Pat F × Expr F))
    (s : St F) (h : ∀ a ∈ pre, Mismatch H a.1 v) : runArms H f v (pre ++ rest) s = runArms H f v rest s := by
  induction pre with
  | nil => rfl
  | cons a pre ih =>
    have ha := h a (by simp)
    have hm : patMatches H a.1 v s = (.ok false, s) := by
      rcases ha with h1 | ⟨d, h1, h2⟩
      · rw [h1]; rfl
      · rw [h1]; show (Except.ok (dataEq H v.data d), s) = _; rw [h2]
    show (patMatches H a.1 v >>= fun b => if b = true then f.ev a.2 else runArms H f v (pre ++ rest)) s = _
    rw [bind_ok hm]
    exact ih (fun x hx => h x (List.mem_cons_of_mem _ hx))

/-- C136: a match evaluates its subject once and then the expression of the first arm that matches, and no other:
a wildcard matches anything, a literal its own value, a name anything (and binds it). -/
theorem C136_first_arm (H : Host F) (P : Prog F) (n : Nat) (subj body : Expr F) (p : Pat F)
    (pre post : List (Pat F × Expr F)) (s s1 : St F) (v : Val F)
    (hs : (interp H P n).ev subj s = (.ok v, s1)) (hpre : ∀ a ∈ pre, Mismatch H a.1 v) :
    (p = .wild ∨ (∃ d, p = .lit d ∧ dataEq H v.data d = true) →
      (interp H P (n + 1)).ev (.matchE subj (pre ++ (p, body) :: post)) s = (interp H P n).ev body s1) ∧
    (∀ x, p = .ident x → ∃ s2, setVar x v s1 = (.ok (), s2) ∧
      (interp H P (n + 1)).ev (.matchE subj (pre ++ (p, body) :: post)) s = (interp H P n).ev body s2) := by
  have h1 : (interp H P (n + 1)).ev (.matchE subj (pre ++ (p, body) :: post)) s =
      runArms H (interp H P n) v (pre ++ (p, body) :: post) s1 := bind_ok hs
  rw [h1, runArms_skip H _ v pre _ s1 hpre]
  constructor
  · intro hp
    have hm : patMatches H p v s1 = (.ok true, s1) := by
      rcases hp with h | ⟨d, h, h2⟩
      · rw [h]; rfl
      · rw [h]; show (Except.ok (dataEq H v.data d), s1) = _; rw [h2]
    show (patMatches H p v >>= fun b => if b = true then (interp H P n).ev body else _) s1 = _
    rw [bind_ok hm]; rfl
  · intro x hp
    refine ⟨(setVar x v s1).2, rfl, ?_⟩
    subst hp
    have hm : patMatches H (.ident x) v s1 = (.ok true, (setVar x v s1).2) := rfl
    show (patMatches H (.ident x) v >>= fun b => if b = true then (interp H P n).ev body else _) s1 = _
    rw [bind_ok hm]; rfl

/-- C136: when no arm matches, the match is an error. -/
theorem C136_no_arm (H : Host F) (P : Prog F) (n : Nat) (subj : Expr F) (arms : List (Pat F × Expr F)) (s s1 : St F)
    (v : Val F) (hs : (interp H P n).ev subj s = (.ok v, s1)) (h : ∀ a ∈ arms, Mismatch H a.1 v) :
    (interp H P (n + 1)).ev (.matchE subj arms) s = (.error (.py (.rt "No match arm matched")), s1) := by
  have h1 : (interp H P (n + 1)).ev (.matchE subj arms) s = runArms H (interp H P n) v arms s1 := bind_ok hs
  rw [h1, ← List.append_nil arms, runArms_skip H _ v arms [] s1 h]
  rfl

/-- Non-vacuity: the literal 2 is not matched by 1, then by 2; an unsupported pattern never matches. -/
example :
    let P : Prog Int := ⟨[], 5⟩
    let run (arms : List (Pat Int × Expr Int)) := ((interp demoHost P 9).ev (.matchE (iLit 2) arms) st0).1
    run [(.lit (.int 1), iLit 10), (.other, iLit 11), (.lit (.int 2), iLit 12), (.wild, iLit 13)] =
      .ok ⟨.int 12, .prim .int, false⟩ ∧
    run [(.lit (.int 1), iLit 10), (.other, iLit 11)] = .error (.py (.rt "No match arm matched")) := ⟨rfl, rfl⟩

end Verif.Interp
