import Verif.Pipe.Static

/-!
# Accepted programs of the fragment do not go wrong: expressions, statements, calls
-/

namespace Verif.Pipe

open Verif.Types (Ty accepts commonType isNumeric)
open Verif.Parser (Name Mod Fn Param Block)
open Verif.Checker (HasTy ArgsTy NamedOk StmtOk StmtsOk BlockTy ElifsOk Symb Kind setTop bindFree topFree frameOf
  ItemSym items Denotes DenotesOpt emptyFrame resolveName lookupBuiltin fnTy ParamsOk)
open Verif.Interp hiding lookup
open Verif.Dict

variable {F : Type}

/-- a run ends with a result and state as described, or with a harmless exception -/
def Safe {α : Type} (X : Err → Prop) (r : Except Exn α × St F) (Q : α → St F → Prop) : Prop :=
  match r with
  | (.ok a, s) => Q a s
  | (.error (.py e), _) => Benign X e
  | (.error .outOfFuel, _) => True

section
variable {X : Err → Prop} {α β : Type}

theorem Safe.bind {m : M F α} {k : α → M F β} {st : St F} {Q : α → St F → Prop} {Q' : β → St F → Prop}
    (h : Safe X (m st) Q) (hk : ∀ a s, Q a s → Safe X (k a s) Q') : Safe X ((m >>= k) st) Q' := by
  show Safe X (Interp.bind m k st) Q'
  unfold Interp.bind
  cases hm : m st with
  | mk r s =>
    rw [hm] at h
    cases r with
    | ok a => exact hk a s h
    | error e => cases e <;> exact h

theorem Safe.mono {r : Except Exn α × St F} {Q Q' : α → St F → Prop} (h : Safe X r Q) (hk : ∀ a s, Q a s → Q' a s) : Safe X r Q' := by
  obtain ⟨r, s⟩ := r
  cases r with
  | ok a => exact hk a s h
  | error e => cases e <;> exact h

theorem Safe.pure {a : α} {st : St F} {Q : α → St F → Prop} (h : Q a st) : Safe X ((Pure.pure a : M F α) st) Q := h

theorem Safe.lift {t : Ty} {r : Except Err (Val F)} {st : St F} (h : Res X t r) :
    Safe X (Interp.lift r st) (fun v s => Fits t v ∧ s = st) := by
  cases r with
  | ok v => exact ⟨h, rfl⟩
  | error e => exact h

theorem Safe.fin {m : M F α} {u : St F → St F} {st : St F} {Q : α → St F → Prop} (h : Safe X (m st) (fun a s => Q a (u s))) :
    Safe X (Interp.fin m u st) Q := by
  unfold Interp.fin
  cases hm : m st with
  | mk r s =>
    rw [hm] at h
    cases r with
    | ok a => exact h
    | error e => cases e <;> exact h
end

/-- the variables of a command at run time agree with the scopes of the checker: a declared variable has a value that fits,
and a name left over from an earlier iteration of a loop is not visible from the scopes around -/
def Agree (A : Lang) : List Checker.Frame → List (Frame F) → Prop
  | [], [] => True
  | γ :: L, f :: fs =>
    (∀ n y, γ n = some y → isText n = true ∧ Cls (A.lists n) y.ty ∧ (y.kind = .var ∨ y.kind = .param) ∧
      ∃ v, dget f (str n) = some v ∧ Fits y.ty v) ∧
    (∀ n, isText n = true → γ n = none → (dget f (str n)).isSome = true → Checker.lookup L n = none) ∧ Agree A L fs
  | _, _ => False

section
variable {A : Lang}

theorem Agree.loc : ∀ {L : List Checker.Frame} {fs : List (Frame F)}, Agree A L fs → LocOk A L
  | [], [], _ => by simp [LocOk]
  | γ :: L, f :: fs, h => by
    intro γ' hm n y hy
    rcases List.mem_cons.1 hm with rfl | hm
    · obtain ⟨h1, h2, h3, -⟩ := h.1 n y hy
      exact ⟨h1, h2, h3⟩
    · exact h.2.2.loc γ' hm n y hy

theorem Agree.len : ∀ {L : List Checker.Frame} {fs : List (Frame F)}, Agree A L fs → L.length = fs.length
  | [], [], _ => rfl
  | γ :: L, f :: fs, h => by simp [h.2.2.len]

theorem Agree.lookup : ∀ {L : List Checker.Frame} {fs : List (Frame F)}, Agree A L fs → ∀ {n : Name} {y : Symb},
    isText n = true → Checker.lookup L n = some y → Cls (A.lists n) y.ty ∧ ∃ v, Interp.lookup fs (str n) = some v ∧ Fits y.ty v
  | [], [], _, n, y, _, h => by simp [Checker.lookup] at h
  | γ :: L, f :: fs, h, n, y, ht, hl => by
    simp only [Checker.lookup] at hl
    cases hg : γ n with
    | some z =>
      rw [hg] at hl
      cases hl
      obtain ⟨-, hc, -, v, hv, hf⟩ := h.1 n _ hg
      exact ⟨hc, v, by simp [Interp.lookup, hv], hf⟩
    | none =>
      rw [hg] at hl
      have hn : dget f (str n) = none := by
        cases hd : dget f (str n) with
        | none => rfl
        | some v => rw [h.2.1 n ht hg (by simp [hd])] at hl; cases hl
      obtain ⟨hc, v, hv, hf⟩ := h.2.2.lookup ht hl
      exact ⟨hc, v, by simp [Interp.lookup, hn, hv], hf⟩

theorem str_inj {n n' : Name} (h : isText n = true) (h' : isText n' = true) (he : str n = str n') : n = n' := by
  cases n <;> simp [isText] at h
  cases n' <;> simp [isText] at h'
  simp only [str] at he
  rw [String.ofList_injective he]

theorem Agree.set {γ : Checker.Frame} {L : List Checker.Frame} {f : Frame F} {fs : List (Frame F)} (h : Agree A (γ :: L) (f :: fs))
    {n : Name} {k : Kind} {t : Ty} {v : Val F} (ht : isText n = true) (hc : Cls (A.lists n) t) (hk : k = .var ∨ k = .param)
    (hv : Fits t v) : Agree A ((fun m => if m = n then some ⟨k, t⟩ else γ m) :: L) (dset f (str n) v :: fs) := by
  refine ⟨fun n' y hy => ?_, fun n' ht' hn' hs => ?_, h.2.2⟩
  · dsimp only at hy
    split at hy
    next he =>
      subst he
      cases hy
      exact ⟨ht, hc, hk, v, dget_dset_same _ _ _, hv⟩
    next he =>
      obtain ⟨h1, h2, h3, w, hw, hf⟩ := h.1 n' y hy
      exact ⟨h1, h2, h3, w, by rw [dget_dset_other _ _ _ _ (fun e => he (str_inj h1 ht e))]; exact hw, hf⟩
  · dsimp only at hn'
    split at hn'
    · cases hn'
    next he =>
      rw [dget_dset_other _ _ _ _ (fun e => he (str_inj ht' ht e))] at hs
      exact h.2.1 n' ht' hn' hs

theorem Agree.update : ∀ {L : List Checker.Frame} {fs : List (Frame F)}, Agree A L fs → ∀ {n : Name} {y : Symb} {v : Val F},
    isText n = true → Checker.lookup L n = some y → Fits y.ty v → ∃ fs', Interp.update fs (str n) v = some fs' ∧ Agree A L fs'
  | [], [], _, n, y, _, _, h, _ => by simp [Checker.lookup] at h
  | γ :: L, f :: fs, h, n, y, v, ht, hl, hv => by
    simp only [Checker.lookup] at hl
    cases hg : γ n with
    | some z =>
      rw [hg] at hl
      cases hl
      obtain ⟨-, hc, hk, w, hw, hf⟩ := h.1 n _ hg
      refine ⟨dset f (str n) v :: fs, by simp [Interp.update, hw], ?_⟩
      have := h.set (k := y.kind) ht hc hk hv
      have he : (fun m => if m = n then some ⟨y.kind, y.ty⟩ else γ m) = γ := by
        funext m
        split
        next e => rw [e, hg]
        · rfl
      rwa [he] at this
    | none =>
      rw [hg] at hl
      have hn : dget f (str n) = none := by
        cases hd : dget f (str n) with
        | none => rfl
        | some v => rw [h.2.1 n ht hg (by simp [hd])] at hl; cases hl
      obtain ⟨fs', hfs, ha⟩ := h.2.2.update ht hl hv
      exact ⟨f :: fs', by simp [Interp.update, hn, hfs], h.1, h.2.1, ha⟩

theorem Agree.push {L : List Checker.Frame} {fs : List (Frame F)} (h : Agree A L fs) : Agree A (emptyFrame :: L) ([] :: fs) :=
  ⟨fun n y hy => by simp [emptyFrame] at hy, fun n _ _ hs => by simp [dget] at hs, h⟩

end

/-- what was emitted fits the declared result type -/
def EmitOk (R : Option Parser.Ty) (em : Option (Val F × List (String × Data F))) : Prop :=
  ∀ v md a r, em = some (v, md) → R = some a → Denotes a r → core r = true → Fits r v

theorem denotes_unique {a : Parser.Ty} {t u : Ty} (h : Denotes a t) (h' : Denotes a u) : t = u := by
  induction h generalizing u with
  | simple h => cases h' with
    | simple h' => rw [h] at h'; cases h'; rfl
  | list _ ih => cases h' with
    | list h' => rw [ih h']
  | opt _ ih => cases h' with
    | opt h' => rw [ih h']

/-- what is assumed -/
structure Setup (H : Host F) (E : Enc F) (A : Lang) (X : Err → Prop) (g : Checker.Frame) : Prop where
  native : ∀ s, H.native s = none
  hint : ∀ c ∈ A.mod.functions, E.hint c = none
  tame : tameMod A = true
  glob : GlobOk A.mod g
  cmds : ∀ c ∈ A.mod.functions, Checker.CmdOk g c
  honest : Honest H A.builtins X

section
variable (H : Host F) (E : Enc F) (A : Lang) (X : Err → Prop) (g : Checker.Frame)

/-- expressions -/
def SoundE (f : Fns F) : Prop := ∀ {R : Option Parser.Ty} {L : List Checker.Frame} {e : Parser.Expr} {t : Ty} {Γ' : List Checker.Frame} {st : St F},
  HasTy R (L ++ [g]) e t Γ' → tameE A e = true → Agree A L st.ctx.frames →
    Safe X (f.ev (trE E e) st) (fun v st' => Fits t v ∧ st'.ctx = st.ctx)

/-- only the innermost scope has changed, by declarations of these names -/
def Grows (L L' : List Checker.Frame) (ns : List Name) : Prop :=
  ∃ γ γ' M, L = γ :: M ∧ L' = γ' :: M ∧ ∀ n, γ' n ≠ γ n → n ∈ ns

/-- the names declared so far -/
def Vis (L : List Checker.Frame) (D : List Name) : Prop := ∀ n, (Checker.lookup L n).isSome = true → n ∈ D

/-- the state after statements -/
def Post (R : Option Parser.Ty) (L : List Checker.Frame) (ns : List Name) (Γ' : List Checker.Frame) (c : Ctx F) : Prop :=
  ∃ L', Γ' = L' ++ [g] ∧ Agree A L' c.frames ∧ Grows L L' ns ∧ c.ret = none ∧ EmitOk R c.emit

/-- statements -/
def SoundS (f : Fns F) : Prop := ∀ {R : Option Parser.Ty} {L : List Checker.Frame} {D : List Name} {s : Parser.Stmt} {Γ' : List Checker.Frame} {st : St F},
  StmtOk R (L ++ [g]) s Γ' → tameS A D s = true → Agree A L st.ctx.frames → L ≠ [] → Vis L D → st.ctx.ret = none → EmitOk R st.ctx.emit →
    Safe X (f.ex (trS E s) st) (fun _ st' => Post A g R L (binds s) Γ' st'.ctx)
end

section
variable {H : Host F} {E : Enc F} {A : Lang} {X : Err → Prop} {g : Checker.Frame} {f : Fns F}

theorem Grows.refl {L : List Checker.Frame} (h : L ≠ []) (ns : List Name) : Grows L L ns := by
  cases L with
  | nil => exact absurd rfl h
  | cons γ M => exact ⟨γ, γ, M, rfl, rfl, fun n hn => absurd rfl hn⟩

theorem Grows.trans {L L' L'' : List Checker.Frame} {ns ns' : List Name} (h : Grows L L' ns) (h' : Grows L' L'' ns') :
    Grows L L'' (ns ++ ns') := by
  obtain ⟨γ, γ', M, rfl, rfl, h1⟩ := h
  obtain ⟨γ1, γ2, M', he, rfl, h2⟩ := h'
  cases he
  refine ⟨γ, γ2, M, rfl, rfl, fun n hn => ?_⟩
  by_cases h3 : γ' n = γ n
  · rw [← h3] at hn; exact List.mem_append_right _ (h2 n hn)
  · exact List.mem_append_left _ (h1 n h3)

theorem Grows.ne {L L' : List Checker.Frame} {ns : List Name} (h : Grows L L' ns) : L' ≠ [] := by
  obtain ⟨γ, γ', M, rfl, rfl, -⟩ := h
  simp

theorem Grows.vis {L L' : List Checker.Frame} {ns D : List Name} (h : Grows L L' ns) (hv : Vis L D) : Vis L' (ns ++ D) := by
  obtain ⟨γ, γ', M, rfl, rfl, h1⟩ := h
  intro n hn
  by_cases h3 : γ' n = γ n
  · apply List.mem_append_right
    apply hv
    simpa only [Checker.lookup, h3] using hn
  · exact List.mem_append_left _ (h1 n h3)

/-- a condition -/
theorem SoundE.truthy (hE : SoundE E A X g f) {R : Option Parser.Ty} {L : List Checker.Frame} {e : Parser.Expr} {Γ' : List Checker.Frame}
    {st : St F} (h : HasTy R (L ++ [g]) e (.prim .bool) Γ') (ht : tameE A e = true) (ha : Agree A L st.ctx.frames) :
    Safe X (evTruthy H f (trE E e) st) (fun _ st' => st'.ctx = st.ctx) := by
  refine Safe.bind (hE h ht ha) fun v s hv => ?_
  obtain ⟨b, rfl⟩ := fits_bool hv.1
  exact hv.2

/-- positional arguments -/
theorem SoundE.args (S : Setup H E A X g) (hE : SoundE E A X g f) {R : Option Parser.Ty} {L : List Checker.Frame} :
    ∀ (es : List Parser.Expr) {ps ts : List Ty} {Γ' : List Checker.Frame} {st : St F}, ArgsTy R (L ++ [g]) ps es ts Γ' → tameEs A es = true →
    Agree A L st.ctx.frames → es.length ≤ ps.length → (∀ p ∈ ps, core p = true) →
    Safe X (mapM f.ev (trEs E es) st) (fun vs st' => List.Forall₂ Fits (ps.take vs.length) vs ∧ vs.length = es.length ∧ st'.ctx = st.ctx)
  | [], ps, ts, Γ', st, _, _, _, _, _ => by exact ⟨by simp, rfl, rfl⟩
  | e :: es, ps, ts, Γ', st, h, ht, ha, hl, hc => by
    simp only [tameEs, Bool.and_eq_true] at ht
    cases h with
    | extra => simp at hl
    | @cons _ Γ1 _ p ps e es t ts h1 hacc h2 =>
      obtain ⟨rfl, -⟩ := statE S.glob ha.loc e ht.1 h1
      refine Safe.bind (hE h1 ht.1 ha) fun v s hv => ?_
      have ha' : Agree A L s.ctx.frames := by rw [hv.2]; exact ha
      refine Safe.bind (SoundE.args S hE es h2 ht.2 ha' (by simpa using hl) (fun p hp => hc p (by simp [hp]))) fun vs s' hvs => ?_
      refine ⟨?_, by simp [hvs.2.1], by rw [hvs.2.2, hv.2]⟩
      simp only [List.length_cons, List.take_succ_cons]
      exact List.Forall₂.cons (Fits.up (hc p (by simp)) hacc hv.1) hvs.1

/-- named entries -/
theorem SoundE.entries (S : Setup H E A X g) (hE : SoundE E A X g f) {R : Option Parser.Ty} {L : List Checker.Frame} :
    ∀ (es : List (Name × Parser.Expr)) {al : Option (List Name)} {Γ' : List Checker.Frame} {st : St F} (d : List (String × Data F)),
    NamedOk R (L ++ [g]) al es Γ' → tameN A es = true → Agree A L st.ctx.frames →
    Safe X (foldM (fun d p => do
      let v ← f.ev p.2
      pure (dset d p.1 v.data)) d (trN E es) st) (fun _ st' => st'.ctx = st.ctx)
  | [], _, _, st, d, _, _, _ => by exact (rfl : st.ctx = st.ctx)
  | (k, e) :: es, _, _, st, d, h, ht, ha => by
    simp only [tameN, Bool.and_eq_true] at ht
    cases h with
    | cons h1 _ h2 =>
      obtain ⟨rfl, -⟩ := statE S.glob ha.loc e ht.1 h1
      refine Safe.bind (Q := fun _ s => s.ctx = st.ctx) (Safe.bind (hE h1 ht.1 ha) fun v s hv => hv.2) fun d' s hs => ?_
      have ha' : Agree A L s.ctx.frames := by rw [hs]; exact ha
      exact (SoundE.entries S hE es d' h2 ht.2 ha').mono fun _ s' h' => by rw [h', hs]

/-- a statement list -/
theorem SoundS.body (hS : SoundS E A X g f) {R : Option Parser.Ty} : ∀ (ss : List Parser.Stmt) {L : List Checker.Frame} {D : List Name}
    {Γ' : List Checker.Frame} {st : St F}, StmtsOk R (L ++ [g]) ss Γ' → tameSs A D ss = true → Agree A L st.ctx.frames → L ≠ [] →
    Vis L D → st.ctx.ret = none → EmitOk R st.ctx.emit →
    Safe X (runBody f (trSs E ss) st) (fun _ st' => Post A g R L (ss.flatMap binds) Γ' st'.ctx)
  | [], L, D, Γ', st, h, _, ha, hne, _, hr, he => by
    cases h
    exact ⟨L, rfl, ha, Grows.refl hne _, hr, he⟩
  | s :: ss, L, D, Γ', st, h, ht, ha, hne, hv, hr, he => by
    simp only [tameSs, Bool.and_eq_true] at ht
    cases h with
    | cons h1 h2 =>
      refine Safe.bind (hS h1 ht.1 ha hne hv hr he) fun _ s' hp => ?_
      obtain ⟨L', rfl, ha', hg', hr', he'⟩ := hp
      have : unlessRet (runBody f (trSs E ss)) s' = runBody f (trSs E ss) s' := by simp [unlessRet, hr']
      rw [this]
      refine (SoundS.body hS ss h2 ht.2 ha' hg'.ne (hg'.vis hv) hr' he').mono fun _ s'' hp' => ?_
      obtain ⟨L'', rfl, ha'', hg'', hr'', he''⟩ := hp'
      exact ⟨L'', rfl, ha'', hg'.trans hg'', hr'', he''⟩

theorem flat_binds (b : Block) : (match b with | .mk ss _ => ss.flatMap binds) = bindsB b := by cases b; rfl

/-- a block run in the scopes it was checked in -/
theorem SoundS.block (hS : SoundS E A X g f) {R : Option Parser.Ty} (b : Block) {L : List Checker.Frame} {D : List Name} {x : Option Ty}
    {Γ' : List Checker.Frame} {st : St F} (h : BlockTy R (L ++ [g]) b x Γ') (ht : tameB A D b = true) (ha : Agree A L st.ctx.frames)
    (hne : L ≠ []) (hv : Vis L D) (hr : st.ctx.ret = none) (he : EmitOk R st.ctx.emit) :
    Safe X (runBody f (trB E b) st) (fun _ st' => ∃ L', Agree A L' st'.ctx.frames ∧ Grows L L' (bindsB b) ∧ st'.ctx.ret = none ∧
      EmitOk R st'.ctx.emit) := by
  obtain ⟨ss, fe⟩ := b
  simp only [tameB] at ht
  have key : ∀ {Γ1}, StmtsOk R (L ++ [g]) ss Γ1 → Safe X (runBody f (trB E (.mk ss fe)) st) (fun _ st' => ∃ L', Agree A L' st'.ctx.frames ∧
      Grows L L' (bindsB (.mk ss fe)) ∧ st'.ctx.ret = none ∧ EmitOk R st'.ctx.emit) := by
    intro Γ1 h1
    refine (hS.body ss h1 ht ha hne hv hr he).mono fun _ s' hp => ?_
    obtain ⟨L', -, h⟩ := hp
    exact ⟨L', h⟩
  cases h with
  | none h1 => exact key h1
  | some h1 _ => exact key h1

/-- a new scope around a computation -/
theorem Safe.scope {α : Type} {m : M F α} {st : St F} {Q : α → St F → Prop}
    (h : Safe X (m { st with ctx := { st.ctx with frames := [] :: st.ctx.frames } })
      (fun a s' => ∃ f' fs', s'.ctx.frames = f' :: fs' ∧ fs'.length = st.ctx.frames.length ∧
        Q a { s' with ctx := { s'.ctx with frames := fs' } })) : Safe X (withScope m st) Q := by
  unfold withScope
  apply Safe.fin
  refine h.mono fun a s' hs => ?_
  obtain ⟨f', fs', h1, h2, h3⟩ := hs
  rw [h1]
  have : (f' :: fs').drop ((f' :: fs').length - st.ctx.frames.length) = fs' := by
    rw [List.length_cons, h2]
    simp
  rw [this]
  exact h3

/-- a block in a scope of its own -/
theorem SoundS.scoped (hS : SoundS E A X g f) {R : Option Parser.Ty} (b : Block) {L : List Checker.Frame} {D : List Name} {x : Option Ty}
    {Γ' : List Checker.Frame} {st : St F} (h : BlockTy R (emptyFrame :: (L ++ [g])) b x Γ') (ht : tameB A D b = true)
    (ha : Agree A L st.ctx.frames) (hv : Vis L D) (hr : st.ctx.ret = none) (he : EmitOk R st.ctx.emit) :
    Safe X (withScope (runBody f (trB E b)) st) (fun _ st' => Agree A L st'.ctx.frames ∧ st'.ctx.ret = none ∧ EmitOk R st'.ctx.emit) := by
  apply Safe.scope
  rw [← List.cons_append] at h
  refine (hS.block (st := { st with ctx := { st.ctx with frames := [] :: st.ctx.frames } }) b h ht ha.push (by simp) (fun n hn => hv n (by simpa [Checker.lookup, emptyFrame] using hn)) hr he).mono fun _ s' hp => ?_
  obtain ⟨L', ha', ⟨γ, γ', M, hL, rfl, -⟩, hr', he'⟩ := hp
  cases hL
  cases hf : s'.ctx.frames with
  | nil => rw [hf] at ha'; exact ha'.elim
  | cons f' fs' =>
    rw [hf] at ha'
    exact ⟨f', fs', rfl, by rw [← ha'.2.2.len, ha.len], ha'.2.2, hr', he'⟩

/-- the elif and else branches -/
theorem SoundS.elifs (S : Setup H E A X g) (hE : SoundE E A X g f) (hS : SoundS E A X g f) {R : Option Parser.Ty} {L : List Checker.Frame} {D : List Name}
    (els : Option Block) : ∀ (bs : List (Parser.Expr × Block)) {Γ' : List Checker.Frame} {st : St F}, ElifsOk R (L ++ [g]) bs Γ' →
    (∀ b, els = some b → tameB A D b = true ∧ ∃ x Γ2, BlockTy R (emptyFrame :: (L ++ [g])) b x Γ2) →
    tameL A D bs = true → Agree A L st.ctx.frames → Vis L D → st.ctx.ret = none → EmitOk R st.ctx.emit →
    Safe X (runElifs H f (match els with | some b => some (trB E b) | none => none) (trL E bs) st)
      (fun _ st' => Agree A L st'.ctx.frames ∧ st'.ctx.ret = none ∧ EmitOk R st'.ctx.emit)
  | [], Γ', st, h, hels, _, ha, hv, hr, he => by
    cases els with
    | none => exact ⟨ha, hr, he⟩
    | some b =>
      obtain ⟨ht, x, Γ2, hb⟩ := hels b rfl
      exact hS.scoped b hb ht ha hv hr he
  | (c, b) :: bs, Γ', st, h, hels, ht, ha, hv, hr, he => by
    simp only [tameL, Bool.and_eq_true] at ht
    cases h with
    | cons h1 h2 h3 =>
      obtain ⟨rfl, -⟩ := statE S.glob ha.loc c ht.1 h1
      refine Safe.bind (hE.truthy (H := H) h1 ht.1 ha) fun t s hs => ?_
      rw [← hs] at ha hr he
      cases t
      · exact SoundS.elifs S hE hS els bs h3 hels ht.2.2 ha hv hr he
      · exact hS.scoped b h2 ht.2.1 ha hv hr he

theorem elifs_static (S : Setup H E A X g) {R : Option Parser.Ty} {L : List Checker.Frame} {D : List Name} (hL : LocOk A L) :
    ∀ (bs : List (Parser.Expr × Block)) {Γ' : List Checker.Frame}, ElifsOk R (L ++ [g]) bs Γ' → tameL A D bs = true → Γ' = L ++ [g]
  | [], _, h, _ => by cases h; rfl
  | (c, b) :: bs, _, h, ht => by
    simp only [tameL, Bool.and_eq_true] at ht
    cases h with
    | cons h1 h2 h3 =>
      obtain ⟨rfl, -⟩ := statE S.glob hL c ht.1 h1
      exact elifs_static S hL bs h3 ht.2.2

/-- the iterations of a loop -/
theorem SoundS.loop (hS : SoundS E A X g f) {R : Option Parser.Ty} {L : List Checker.Frame} {D : List Name} {v : Name} {et u : Ty} {body : Block}
    {x : Option Ty} {Γ' : List Checker.Frame} (hvt : isText v = true) (hcls : Cls (A.lists v) et)
    (hb : BlockTy R ((fun m => if m = v then some ⟨.var, et⟩ else none) :: (L ++ [g])) body x Γ')
    (hfresh : ∀ n ∈ bindsB body, n ∉ D) (ht : tameB A (v :: D) body = true) (hvis : Vis L D) :
    ∀ (items : List (Data F)) {st : St F} (fr : Frame F) (fs : List (Frame F)), (∀ d ∈ items, Fits et (⟨d, u, false⟩ : Val F)) →
    st.ctx.frames = fr :: fs → (∀ n, isText n = true → (dget fr (str n)).isSome = true → n = v ∨ Checker.lookup L n = none) →
    Agree A L fs → st.ctx.ret = none → EmitOk R st.ctx.emit →
    Safe X (forItems f (str v) u (trB E body) items st) (fun _ st' => ∃ f' fs', st'.ctx.frames = f' :: fs' ∧ Agree A L fs' ∧
      st'.ctx.ret = none ∧ EmitOk R st'.ctx.emit)
  | [], st, fr, fs, _, hf, _, ha, hr, he => by exact ⟨fr, fs, hf, ha, hr, he⟩
  | d :: ds, st, fr, fs, hd, hf, hstale, ha, hr, he => by
    have hag : Agree A ((fun m => if m = v then some ⟨.var, et⟩ else none) :: L) (dset fr (str v) ⟨d, u, false⟩ :: fs) := by
      refine ⟨fun n y hy => ?_, fun n hn hnone hs => ?_, ha⟩
      · dsimp only at hy
        split at hy
        next e =>
          subst e
          cases hy
          exact ⟨hvt, hcls, .inl rfl, _, dget_dset_same _ _ _, hd d (by simp)⟩
        · cases hy
      · dsimp only at hnone
        split at hnone
        · cases hnone
        next e =>
          rw [dget_dset_other _ _ _ _ (fun h => e (str_inj hn hvt h))] at hs
          exact (hstale n hn hs).resolve_left e
    have hset : setVar (str v) ⟨d, u, false⟩ st =
        (.ok (), { st with ctx := { st.ctx with frames := dset fr (str v) ⟨d, u, false⟩ :: fs } }) := by
      simp [setVar, modCtx, hf, bindTop]
    refine Safe.bind (Q := fun _ s => s = { st with ctx := { st.ctx with frames := dset fr (str v) ⟨d, u, false⟩ :: fs } })
      (by rw [hset]; exact rfl) fun _ s hs => ?_
    subst hs
    refine Safe.bind (hS.block body (by rw [← List.cons_append] at hb; exact hb) ht hag (by simp) (fun n hn => ?_) hr he)
      fun _ s hp => ?_
    · by_cases e : n = v
      · simp [e]
      · simp only [Checker.lookup, e, if_false] at hn
        exact List.mem_cons_of_mem _ (hvis n hn)
    obtain ⟨L', ha', ⟨γ, γ', M, hL, rfl, hgr⟩, hr', he'⟩ := hp
    cases hL
    cases hfr : s.ctx.frames with
    | nil => rw [hfr] at ha'; exact ha'.elim
    | cons f' fs' =>
      rw [hfr] at ha'
      have : unlessRet (forItems f (str v) u (trB E body) ds) s = forItems f (str v) u (trB E body) ds s := by simp [unlessRet, hr']
      rw [this]
      refine SoundS.loop hS hvt hcls hb hfresh ht hvis ds f' fs' (fun d hd' => hd d (by simp [hd'])) hfr (fun n hn hs => ?_) ha'.2.2 hr' he'
      by_cases e : n = v
      · exact .inl e
      · refine .inr ?_
        cases hg : γ' n with
        | none => exact ha'.2.1 n hn hg hs
        | some y =>
          have hm : n ∈ bindsB body := hgr n (by simp [hg, e])
          cases hl : Checker.lookup L n with
          | none => rfl
          | some z => exact absurd (hvis n (by simp [hl])) (hfresh n hm)

end

end Verif.Pipe
