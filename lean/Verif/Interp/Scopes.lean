import Verif.Interp.Lemmas

/-! # Scope chains: what a run may change (C26) -/

namespace Verif.Interp

open Verif.Dict Verif.Types
variable {F : Type}

/-- outer scopes: the same names, and the same values of every name in `Hid` or bound further inside -/
def FR (Hid : String → Prop) : List (Frame F) → List (Frame F) → Prop
  | [], [] => True
  | f :: fs, f' :: fs' => keys f' = keys f ∧ (∀ x, Hid x → dget f' x = dget f x) ∧
      FR (fun x => Hid x ∨ x ∈ keys f) fs fs'
  | _, _ => False

/-- the whole chain: the current scope may gain names -/
def TR : List (Frame F) → List (Frame F) → Prop
  | [], [] => True
  | f :: fs, f' :: fs' => (∀ x ∈ keys f, x ∈ keys f') ∧ FR (fun x => x ∈ keys f) fs fs'
  | _, _ => False

theorem FR_refl (Hid : String → Prop) (fs : List (Frame F)) : FR Hid fs fs := by
  induction fs generalizing Hid with
  | nil => trivial
  | cons f fs ih => exact ⟨rfl, fun _ _ => rfl, ih _⟩

theorem FR_weaken {Hid Hid' : String → Prop} (h : ∀ x, Hid x → Hid' x) (fs : List (Frame F)) :
    ∀ fs', FR Hid' fs fs' → FR Hid fs fs' := by
  induction fs generalizing Hid Hid' with
  | nil => intro fs' hr; cases fs' <;> simp_all [FR]
  | cons f fs ih =>
    intro fs' hr
    cases fs' with
    | nil => exact hr
    | cons f' fs' =>
      obtain ⟨h1, h2, h3⟩ := hr
      refine ⟨h1, fun x hx => h2 x (h x hx), ih ?_ fs' h3⟩
      rintro x (hx | hx)
      · exact .inl (h x hx)
      · exact .inr hx

theorem FR_trans {Hid : String → Prop} (a : List (Frame F)) : ∀ b c, FR Hid a b → FR Hid b c → FR Hid a c := by
  induction a generalizing Hid with
  | nil =>
    intro b c h1 h2
    cases b with
    | nil => exact h2
    | cons => cases h1
  | cons f a ih =>
    intro b c h1 h2
    cases b with
    | nil => cases h1
    | cons g b =>
      cases c with
      | nil => cases h2
      | cons k c =>
        obtain ⟨h1, h1', h1''⟩ := h1
        obtain ⟨h2, h2', h2''⟩ := h2
        refine ⟨h2.trans h1, fun x hx => (h2' x hx).trans (h1' x hx), ih b c h1'' ?_⟩
        exact FR_weaken (by rw [h1]; exact fun x hx => hx) _ _ h2''

theorem FR_length {Hid : String → Prop} (a : List (Frame F)) : ∀ b, FR Hid a b → b.length = a.length := by
  induction a generalizing Hid with
  | nil => intro b h; cases b <;> simp_all [FR]
  | cons f a ih =>
    intro b h
    cases b with
    | nil => cases h
    | cons g b => simp [ih b h.2.2]

theorem TR_length (a b : List (Frame F)) (h : TR a b) : b.length = a.length := by
  cases a <;> cases b <;> simp_all [TR]
  exact FR_length _ _ h.2

theorem FR_TR (a b : List (Frame F)) (h : FR (fun _ => False) a b) : TR a b := by
  cases a with
  | nil => cases b <;> simp_all [TR, FR]
  | cons f a =>
    cases b with
    | nil => cases h
    | cons g b =>
      obtain ⟨h1, _, h3⟩ := h
      exact ⟨by rw [h1]; exact fun _ h => h, FR_weaken (fun x hx => .inr hx) _ _ h3⟩

theorem TR_refl (a : List (Frame F)) : TR a a := FR_TR _ _ (FR_refl _ _)

theorem TR_trans (a b c : List (Frame F)) (h1 : TR a b) (h2 : TR b c) : TR a c := by
  cases a with
  | nil => cases b with
    | nil => exact h2
    | cons => cases h1
  | cons f a => cases b with
    | nil => cases h1
    | cons g b => cases c with
      | nil => cases h2
      | cons k c =>
        obtain ⟨h1, h1'⟩ := h1
        obtain ⟨h2, h2'⟩ := h2
        exact ⟨fun x hx => h2 x (h1 x hx), FR_trans _ _ _ h1' (FR_weaken h1 _ _ h2')⟩

theorem dget_isSome_iff (f : Frame F) (x : String) : (dget f x).isSome ↔ x ∈ keys f := by
  constructor
  · intro h
    obtain ⟨v, hv⟩ := Option.isSome_iff_exists.mp h
    exact List.mem_map.mpr ⟨(x, v), mem_of_dget hv, rfl⟩
  · intro h
    by_contra hn
    have : dget f x = none := by simpa using hn
    exact (dget_none.mp this) h

theorem keys_dset_mem (f : Frame F) (x : String) (v : Val F) (h : (dget f x).isSome) : keys (dset f x v) = keys f := by
  induction f with
  | nil => simp [dget] at h
  | cons e f ih =>
    obtain ⟨k, w⟩ := e
    simp only [dset]
    by_cases hk : k = x
    · simp [hk, keys]
    · simp only [hk, if_false]
      simp only [dget, hk, if_false] at h
      have := ih h
      simp only [keys, List.map_cons, List.cons.injEq, true_and] at this ⊢
      exact this

theorem mem_keys_dset (f : Frame F) (x : String) (v : Val F) : ∀ y ∈ keys f, y ∈ keys (dset f x v) := by
  intro y hy
  rw [← dget_isSome_iff] at hy ⊢
  rw [dget_dset]
  split_ifs
  · rfl
  · exact hy

theorem FR_update {Hid : String → Prop} (x : String) (v : Val F) (hx : ¬Hid x) (fs : List (Frame F)) :
    ∀ fr, update fs x v = some fr → FR Hid fs fr := by
  induction fs generalizing Hid with
  | nil => intro fr h; simp [update] at h
  | cons f fs ih =>
    intro fr h
    unfold update at h
    split_ifs at h with hs
    · cases h
      refine ⟨keys_dset_mem f x v hs, ?_, FR_refl _ _⟩
      intro y hy
      rw [dget_dset, if_neg]
      rintro rfl; exact hx hy
    · cases hu : update fs x v with
      | none => rw [hu] at h; cases h
      | some fr' =>
        rw [hu] at h
        simp only [Option.map_some, Option.some.injEq] at h
        subst h
        refine ⟨rfl, fun _ _ => rfl, ih ?_ fr' hu⟩
        rintro (h | h)
        · exact hx h
        · exact hs ((dget_isSome_iff f x).mpr h)

theorem TR_bindTop (fs : List (Frame F)) (x : String) (v : Val F) : TR fs (bindTop fs x v) := by
  cases fs with
  | nil => trivial
  | cons f fs => exact ⟨mem_keys_dset f x v, FR_refl _ _⟩

theorem TR_scope (fs g : List (Frame F)) (h : TR ([] :: fs) g) :
    FR (fun _ => False) fs (g.drop (g.length - fs.length)) := by
  cases g with
  | nil => cases h
  | cons f g =>
    obtain ⟨_, h⟩ := h
    have hl := FR_length _ _ h
    have : (f :: g).length - fs.length = 1 := by simp; omega
    rw [this, List.drop_one, List.tail_cons]
    exact FR_weaken (fun x hx => hx.elim) _ _ h

/-- the scope relation of states -/
def SR (s s' : St F) : Prop := TR s.ctx.frames s'.ctx.frames

theorem good_SR (P : Prog F) : Good P (SR : St F → St F → Prop) where
  refl s := TR_refl _
  trans s t u h1 h2 := TR_trans _ _ _ h1 h2
  setVar x v s := TR_bindTop _ x v
  assign s x v fr h := FR_TR _ _ (FR_update x v (by simp) _ _ h)
  diag s d := TR_refl _
  ret s v := TR_refl _
  fail s m := TR_refl _
  emit s v md := TR_refl _
  builtin s n := TR_refl _
  scope s s' h := FR_TR _ _ (TR_scope _ _ h)
  callEarly s s1 _ h := h
  call s s1 s2 params name _ h _ := h

/-! ### expressions that bind nothing -/

/-- an expression that contains, outside comprehensions, no match arm with an identifier pattern -/
inductive NoBind : Expr F → Prop
  | lit (l) : NoBind (.lit l)
  | ident (x) : NoBind (.ident x)
  | bin (op a b) : NoBind a → NoBind b → NoBind (.bin op a b)
  | un (op a) : NoBind a → NoBind (.un op a)
  | call (fn args named) : (∀ a ∈ args, NoBind a) → (∀ p ∈ named, NoBind p.2) → NoBind (.call fn args named)
  | method (o n args) : NoBind o → (∀ a ∈ args, NoBind a) → NoBind (.method o n args)
  | member (o n) : NoBind o → NoBind (.member o n)
  | index (o i) : NoBind o → NoBind i → NoBind (.index o i)
  | list (es) : (∀ e ∈ es, NoBind e) → NoBind (.list es)
  | comp (e cs) : NoBind (.comp e cs)
  | range (a b) : NoBind a → NoBind b → NoBind (.range a b)
  | dict (es) : (∀ p ∈ es, NoBind p.2) → NoBind (.dict es)
  | cond (c t e) : NoBind c → NoBind t → NoBind e → NoBind (.cond c t e)
  | ifE (c t e) : NoBind c → NoBind t → (∀ e', e = some e' → NoBind e') → NoBind (.ifE c t e)
  | matchE (s arms) : NoBind s → (∀ a ∈ arms, NoBind a.2) → (∀ a ∈ arms, ∀ x, a.1 ≠ .ident x) →
      NoBind (.matchE s arms)
  | lambda (i) : NoBind (.lambda i)
  | py (c t) : NoBind (.py c t)

/-- no default value of a parameter binds anything -/
def DefaultsNoBind (P : Prog F) : Prop :=
  ∀ c ∈ P.cmds, ∀ p ∈ c.params, ∀ e, p.default = some e → NoBind e

/-- all scopes keep their names -/
def KR (s s' : St F) : Prop := FR (fun _ => False) s.ctx.frames s'.ctx.frames

theorem KR_refl (s : St F) : KR s s := FR_refl _ _
theorem KR_trans (s t u : St F) (h1 : KR s t) (h2 : KR t u) : KR s u := FR_trans _ _ _ h1 h2

theorem kpres_bind {α β : Type} {m : M F α} {k : α → M F β} (hm : Pres KR m) (hk : ∀ a, Pres KR (k a)) :
    Pres KR (m >>= k) := by
  intro s
  have h1 := hm s
  rcases h : m s with ⟨r, s'⟩
  rw [h] at h1
  cases r with
  | ok a => rw [bind_ok h]; exact KR_trans _ _ _ h1 (hk a s')
  | error e => rw [bind_err h]; exact h1

theorem kpres_same {α : Type} {m : M F α} (h : ∀ s, (m s).2 = s) : Pres KR m := by
  intro s; rw [h s]; exact KR_refl s

theorem kpres_mapM {α β : Type} {g : α → M F β} (l : List α) (hg : ∀ a ∈ l, Pres KR (g a)) : Pres KR (mapM g l) := by
  induction l with
  | nil => exact fun s => KR_refl s
  | cons a l ih =>
    exact kpres_bind (hg a (by simp)) (fun b => kpres_bind (ih (fun a ha => hg a (List.mem_cons_of_mem _ ha)))
      (fun bs s => KR_refl s))

theorem kpres_foldM {α β : Type} {g : β → α → M F β} (l : List α) (hg : ∀ b, ∀ a ∈ l, Pres KR (g b a)) :
    ∀ b, Pres KR (foldM g b l) := by
  induction l with
  | nil => exact fun b s => KR_refl s
  | cons a l ih =>
    intro b
    exact kpres_bind (hg b a (by simp)) (fun b' => ih (fun b a ha => hg b a (List.mem_cons_of_mem _ ha)) b')

theorem kpres_scope {α : Type} {m : M F α} (hm : Pres SR m) : Pres KR (withScope m) := by
  intro s
  exact TR_scope _ _ (hm { s with ctx := { s.ctx with frames := [] :: s.ctx.frames } })

section
variable {P : Prog F} {H : Host F} {f : Fns F} (hD : DefaultsNoBind P)
  (hk : ∀ e, NoBind e → Pres KR (f.ev e)) (hev : ∀ e, Pres SR (f.ev e)) (hex : ∀ s, Pres SR (f.ex s))
include hk

theorem kpres_truthy {e : Expr F} (he : NoBind e) : Pres KR (evTruthy H f e) :=
  kpres_bind (hk e he) (fun _ s => KR_refl s)

theorem kpres_fillDefaults (ps : List (Param F)) (hp : ∀ p ∈ ps, ∀ e, p.default = some e → NoBind e) :
    ∀ d, Pres KR (fillDefaults f ps d) := by
  induction ps with
  | nil => exact fun d s => KR_refl s
  | cons p ps ih =>
    intro d
    have ih := ih (fun q hq => hp q (List.mem_cons_of_mem _ hq))
    unfold fillDefaults
    cases hd : p.default with
    | none => exact ih d
    | some e => exact kpres_bind (hk e (hp p (by simp) e hd)) (fun v => ih _)

theorem kpres_resolveNamed (named : List (String × Expr F)) (hn : ∀ p ∈ named, NoBind p.2) (ps : List (Param F))
    (hp : ∀ p ∈ ps, ∀ e, p.default = some e → NoBind e) : Pres KR (resolveNamed f named ps) := by
  induction ps with
  | nil => exact fun s => KR_refl s
  | cons p ps ih =>
    have ih := ih (fun q hq => hp q (List.mem_cons_of_mem _ hq))
    unfold resolveNamed
    refine kpres_bind ?_ (fun v => kpres_bind ih (fun vs s => KR_refl s))
    unfold namedArg
    cases hg : dget named p.name with
    | some e => exact hk e (hn _ (mem_of_dget hg))
    | none => cases hd : p.default with
      | some e => exact hk e (hp p (by simp) e hd)
      | none => exact fun s => KR_refl s

include hD in
theorem kpres_callCommand (cmd : Cmd F) (hc : cmd ∈ P.cmds) (args : List (Val F)) :
    Pres KR (callCommand H P f cmd args) := by
  intro s
  unfold callCommand
  split_ifs with hl
  · exact KR_refl s
  · have : Pres KR (callBody H f cmd args) := by
      unfold callBody
      split_ifs
      · exact fun s => KR_refl s
      · refine kpres_bind (kpres_fillDefaults hk _ (fun p hp => hD cmd hc p (List.mem_of_mem_drop hp)) _) ?_
        intro params s
        rw [inNewCtx_state]
        exact KR_refl s
    exact this { s with depth := s.depth + 1 }

include hD in
theorem kpres_callFn (fn : String) (named : List (String × Expr F)) (hn : ∀ p ∈ named, NoBind p.2)
    (args : List (Val F)) : Pres KR (callFn H P f fn named args) := by
  unfold callFn
  cases H.native fn with
  | some g =>
    simp only
    cases g (args.map (·.data)) with
    | ok v => exact fun s => KR_refl s
    | error e => exact fun s => KR_refl s
  | none =>
    cases hc : findCmd P fn with
    | some cmd =>
      have hmem : cmd ∈ P.cmds := List.mem_of_find?_eq_some hc
      simp only
      split_ifs
      · exact kpres_bind (kpres_resolveNamed hk named hn _ (fun p hp => hD cmd hmem p hp))
          (fun _ => kpres_callCommand hD hk _ hmem _)
      · exact kpres_callCommand hD hk _ hmem _
    | none =>
      cases H.builtin fn with
      | none => exact fun s => KR_refl s
      | some g => exact fun s => KR_refl s

include hD hev in
theorem kpres_evalStep (e : Expr F) (he : NoBind e) : Pres KR (evalStep H P f e) := by
  cases he with
  | lit l => exact fun s => KR_refl s
  | ident x =>
    intro s
    show KR s (evIdent x s).2
    unfold evIdent
    cases lookup s.ctx.frames x <;> exact KR_refl s
  | bin op a b ha hb => exact kpres_bind (hk a ha) (fun _ => kpres_bind (hk b hb) (fun _ s => KR_refl s))
  | un op a ha => exact kpres_bind (hk a ha) (fun _ s => KR_refl s)
  | call fn args named ha hn =>
    exact kpres_bind (kpres_mapM _ (fun a h => hk a (ha a h))) (fun _ => kpres_callFn hD hk _ _ hn _)
  | method o n args ho ha =>
    refine kpres_bind (hk o ho) (fun r => kpres_bind (kpres_mapM _ (fun a h => hk a (ha a h))) (fun vs => ?_))
    cases H.method r.ty n with
    | some g => exact fun s => KR_refl s
    | none => exact fun s => KR_refl s
  | member o n ho => exact kpres_bind (hk o ho) (fun _ s => KR_refl s)
  | index o i ho hi => exact kpres_bind (hk o ho) (fun _ => kpres_bind (hk i hi) (fun _ s => KR_refl s))
  | list es hs => exact kpres_bind (kpres_mapM _ (fun a h => hk a (hs a h))) (fun _ s => KR_refl s)
  | comp e cs =>
    show Pres KR (evComp H f e cs)
    unfold evComp
    split_ifs
    · exact fun s => KR_refl s
    · exact kpres_bind (kpres_scope (pres_comp (good_SR P) hev _ _ _)) (fun _ s => KR_refl s)
  | range a b ha hb => exact kpres_bind (hk a ha) (fun _ => kpres_bind (hk b hb) (fun _ s => KR_refl s))
  | dict es hs =>
    refine kpres_bind ?_ (fun _ s => KR_refl s)
    exact kpres_foldM es (fun b a ha => kpres_bind (hk _ (hs a ha)) (fun _ s => KR_refl s)) []
  | cond c t e hc ht he =>
    refine kpres_bind (kpres_truthy hk hc) (fun b => ?_)
    split_ifs
    · exact hk t ht
    · exact hk e he
  | ifE c t e hc ht he =>
    refine kpres_bind (kpres_truthy hk hc) (fun b => ?_)
    split_ifs
    · exact hk t ht
    · cases e with
      | some e => exact hk e (he e rfl)
      | none => exact fun s => KR_refl s
  | matchE sb arms hs ha hi =>
    refine kpres_bind (hk sb hs) (fun v => ?_)
    clear hs
    induction arms with
    | nil => exact fun s => KR_refl s
    | cons a as ih =>
      unfold runArms
      have h1 := ha a (by simp)
      have h2 := hi a (by simp)
      refine kpres_bind ?_ (fun b => ?_)
      · unfold patMatches
        cases hp : a.1 with
        | wild => exact fun s => KR_refl s
        | lit d => exact fun s => KR_refl s
        | ident x => exact absurd hp (h2 x)
        | other => exact fun s => KR_refl s
      · split_ifs
        · exact hk _ h1
        · exact ih (fun a h => ha a (List.mem_cons_of_mem _ h)) (fun a h => hi a (List.mem_cons_of_mem _ h))
  | lambda i => exact fun s => KR_refl s
  | py c t =>
    intro s
    show KR s (evPy H c t s).2
    unfold evPy
    cases H.pyEval c (namespaceOf s.ctx.frames) <;> exact KR_refl s

end

/-- an expression that binds nothing leaves the names of all scopes alone -/
theorem kpres_interp {P : Prog F} (hD : DefaultsNoBind P) (H : Host F) (n : Nat) :
    ∀ e, NoBind e → Pres KR ((interp H P n).ev e) := by
  induction n with
  | zero => exact fun e _ s => KR_refl s
  | succ n ih => exact fun e he => kpres_evalStep hD ih (pres_interp (good_SR P) H n).1 e he

end Verif.Interp
