import Verif.Pipe.Sound2

/-!
# Accepted programs of the fragment do not go wrong: statements, `execute`, `compile_and_run`
-/

namespace Verif.Pipe

open Verif.Types (Ty accepts commonType isNumeric)
open Verif.Parser (Name Mod Fn Param Block)
open Verif.Checker (HasTy ArgsTy NamedOk StmtOk StmtsOk BlockTy ElifsOk Symb Kind setTop bindFree topFree frameOf
  ItemSym items Denotes DenotesOpt emptyFrame resolveName lookupBuiltin fnTy ParamsOk CmdOk DeclTy)
open Verif.Interp hiding lookup Param
open Verif.Dict

variable {F : Type} {H : Host F} {E : Enc F} {A : Lang} {X : Err → Prop} {g : Checker.Frame} {f : Fns F}

theorem listAnn_denotes {a : Parser.Ty} {t : Ty} (h : listAnn a = true) (hd : Denotes a t) : Cls true t := by
  cases hd with
  | simple => simp [listAnn] at h
  | list hd =>
    simp only [listAnn, Bool.and_eq_true] at h
    obtain ⟨p, -, rfl⟩ := primOf_isSome h.2 (DenotesOpt.some hd)
    rfl
  | opt => simp [listAnn] at h

theorem decl_cls {n : Name} {ty : Option Parser.Ty} {e : Parser.Expr} {t u : Ty} (h : declOk A n ty e = true) (hc : Cls (listE A e) t)
    (hd : DeclTy ty t u) : Cls (A.lists n) u ∧ accepts u t = true := by
  cases hd with
  | infer =>
    simp only [declOk, beq_iff_eq] at h
    rw [← h]
    exact ⟨hc, Types.C25_reflexive _⟩
  | annot hden hacc =>
    refine ⟨?_, hacc⟩
    simp only [declOk] at h
    cases hl : A.lists n
    · rw [hl] at h
      obtain ⟨p, -, rfl⟩ := primOf_isSome (by simpa using h) (DenotesOpt.some hden)
      rfl
    · rw [hl] at h
      exact listAnn_denotes (by simpa using h) hden

theorem Post.same {R : Option Parser.Ty} {L : List Checker.Frame} {ns : List Name} {c : Ctx F} (ha : Agree A L c.frames) (hne : L ≠ [])
    (hr : c.ret = none) (he : EmitOk R c.emit) : Post A g R L ns (L ++ [g]) c := ⟨L, rfl, ha, Grows.refl hne _, hr, he⟩

/-- a declaration -/
theorem let_sound (S : Setup H E A X g) (hE : SoundE E A X g f) {R : Option Parser.Ty} {L : List Checker.Frame} {n : Name}
    {ty : Option Parser.Ty} {e : Parser.Expr} {t u : Ty} {Γ1 : List Checker.Frame} {st : St F} (h1 : HasTy R (L ++ [g]) e t Γ1)
    (h2 : DeclTy ty t u) (ht : isText n = true) (hd : declOk A n ty e = true) (hte : tameE A e = true) (ha : Agree A L st.ctx.frames)
    (hne : L ≠ []) (hr : st.ctx.ret = none) (he : EmitOk R st.ctx.emit) :
    Safe X (execStep H f (.letS (str n) (trE E e)) st) (fun _ st' => Post A g R L [n] (setTop Γ1 n ⟨.var, u⟩) st'.ctx) := by
  obtain ⟨rfl, c1⟩ := statE S.glob ha.loc e hte h1
  obtain ⟨c2, hacc⟩ := decl_cls hd c1 h2
  simp only [execStep]
  refine Safe.bind (hE h1 hte ha) fun v s hv => ?_
  cases L with
  | nil => exact absurd rfl hne
  | cons γ M =>
    cases hf : st.ctx.frames with
    | nil => rw [hf] at ha; exact ha.elim
    | cons fr fs =>
      rw [hf] at ha
      refine ⟨(fun m => if m = n then some ⟨.var, u⟩ else γ m) :: M, rfl, ?_, ⟨γ, _, M, rfl, rfl, fun m hm => ?_⟩, ?_, ?_⟩
      · show Agree A _ (bindTop s.ctx.frames (str n) v)
        rw [hv.2, hf]
        exact ha.set ht c2 (.inl rfl) (Fits.up c2.core hacc hv.1)
      · by_cases e : m = n
        · simp [e]
        · simp [e] at hm
      · show s.ctx.ret = none
        rw [hv.2]; exact hr
      · show EmitOk R s.ctx.emit
        rw [hv.2]; exact he

/-- a requirement -/
theorem require_sound (hE : SoundE E A X g f) {R : Option Parser.Ty} {L : List Checker.Frame} {c : Parser.Expr} {Γ1 : List Checker.Frame}
    {st : St F} {msg : Option String} (h1 : HasTy R (L ++ [g]) c (.prim .bool) Γ1) (hte : tameE A c = true) (ha : Agree A L st.ctx.frames)
    (hne : L ≠ []) (hr : st.ctx.ret = none) (he : EmitOk R st.ctx.emit) (ns : List Name) :
    Safe X (execStep H f (.require (trE E c) msg) st) (fun _ st' => Post A g R L ns (L ++ [g]) st'.ctx) := by
  simp only [execStep]
  refine Safe.bind (hE.truthy (H := H) h1 hte ha) fun b s hs => ?_
  rw [← hs] at ha hr he
  cases b
  · exact Post.same (c := { s.ctx with fails := _ }) ha hne hr he
  · exact Post.same ha hne hr he

theorem trS_if (c : Parser.Expr) (b : Block) (elifs : List (Parser.Expr × Block)) (els : Option Block) :
    trS E (.ifS c b elifs els) =
      .ifS (trE E c) (trB E b) (trL E elifs) (match els with | some b => some (trB E b) | none => none) := by
  cases els <;> rfl

theorem stepS (S : Setup H E A X g) (limit n : Nat) (hE : SoundE E A X g (interp H (trMod E limit A.mod) n))
    (hS : SoundS E A X g (interp H (trMod E limit A.mod) n)) : SoundS E A X g (interp H (trMod E limit A.mod) (n + 1)) := by
  intro R L D s Γ' st h ht ha hne hvis hr he
  show Safe X (execStep H (interp H (trMod E limit A.mod) n) (trS E s) st) _
  set f := interp H (trMod E limit A.mod) n with hf
  cases s with
  | letS x ty e =>
    simp only [tameS, Bool.and_eq_true] at ht
    cases h with
    | letS h1 h2 h3 => exact let_sound S hE h1 h2 ht.1 ht.2.1 ht.2.2 ha hne hr he
  | varDecl x ty e =>
    cases e with
    | none => simp [tameS] at ht
    | some e =>
      simp only [tameS, Bool.and_eq_true] at ht
      cases h with
      | varDecl h1 h2 h3 => exact let_sound S hE h1 h2 ht.1 ht.2.1 ht.2.2 ha hne hr he
  | require c msg =>
    simp only [tameS, Bool.and_eq_true] at ht
    cases h with
    | require h1 =>
      obtain ⟨rfl, -⟩ := statE S.glob ha.loc c ht.1 h1
      exact require_sound hE h1 ht.1 ha hne hr he _
    | requireMsg h1 h2 =>
      obtain ⟨rfl, -⟩ := statE S.glob ha.loc c ht.1 h1
      obtain ⟨rfl, -⟩ := statE S.glob ha.loc _ (by simpa [tameO] using ht.2) h2
      exact require_sound hE h1 ht.1 ha hne hr he _
  | assertS c msg =>
    simp only [tameS, Bool.and_eq_true] at ht
    cases h with
    | assertS h1 =>
      obtain ⟨rfl, -⟩ := statE S.glob ha.loc c ht.1 h1
      exact require_sound hE h1 ht.1 ha hne hr he _
    | assertMsg h1 h2 =>
      obtain ⟨rfl, -⟩ := statE S.glob ha.loc c ht.1 h1
      obtain ⟨rfl, -⟩ := statE S.glob ha.loc _ (by simpa [tameO] using ht.2) h2
      exact require_sound hE h1 ht.1 ha hne hr he _
  | emit v md =>
    simp only [tameS, Bool.and_eq_true] at ht
    cases h with
    | @emit _ Γ1 _ _ _ t h1 h2 h3 =>
      obtain ⟨rfl, c1⟩ := statE S.glob ha.loc v ht.1 h1
      obtain rfl := statN S.glob ha.loc md ht.2 h3
      simp only [trS, execStep]
      refine Safe.bind (hE h1 ht.1 ha) fun w s hw => ?_
      have ha' : Agree A L s.ctx.frames := by rw [hw.2]; exact ha
      refine Safe.bind (SoundE.entries S hE md [] h3 ht.2 ha') fun d s' hs' => ?_
      refine ⟨L, rfl, ?_, Grows.refl hne _, ?_, ?_⟩
      · show Agree A L s'.ctx.frames
        rw [hs']; exact ha'
      · show s'.ctx.ret = none
        rw [hs', hw.2]; exact hr
      · intro v' md' a r hem hR hden hcore
        have hv' : v' = w := by
          have := Option.some.inj hem
          exact (Prod.mk.inj this).1.symm
        subst hv'
        obtain ⟨r', hden', hacc⟩ := h2 a hR
        rw [denotes_unique hden hden']
        rw [denotes_unique hden hden'] at hcore
        exact Fits.up hcore hacc hw.1
  | forS v it body =>
    simp only [tameS, Bool.and_eq_true, Bool.not_eq_true'] at ht
    obtain ⟨htv, ⟨hlist, hnl⟩, hti, hfresh, htb⟩ := ht
    cases h with
    | forS h1 h2 =>
      obtain ⟨rfl, c1⟩ := statE S.glob ha.loc it hti h1
      rw [hlist] at c1
      obtain ⟨p, rfl⟩ := cls_true c1
      simp only [trS, execStep]
      refine Safe.bind (hE h1 hti ha) fun w s hw => ?_
      obtain ⟨hw, hs⟩ := hw
      obtain ⟨u, l, e, rfl, hu, hl⟩ := fits_list hw
      rw [← hs] at ha hr he
      refine Safe.bind (Q := fun items s' => items = l ∧ s' = s) ⟨rfl, rfl⟩ fun items s' hi => ?_
      obtain ⟨rfl, rfl⟩ := hi
      apply Safe.scope
      have hb : BlockTy R ((fun m => if m = v then some ⟨.var, .prim p⟩ else none) :: (L ++ [g])) body _ _ := h2
      refine (hS.loop (st := { s' with ctx := { s'.ctx with frames := [] :: s'.ctx.frames } }) (et := .prim p) (u := u) htv
        (by rw [hnl]; rfl) hb (fun m hm hD => ?_) htb hvis items [] s'.ctx.frames
        (fun d hd => ⟨hu, hl d hd, fun _ => rfl⟩) rfl (fun m _ hs => by simp [dget] at hs) ha hr he).mono fun _ s2 hp => ?_
      · have := List.all_eq_true.1 hfresh m hm
        simp only [Bool.not_eq_true', List.contains_eq_mem, decide_eq_false_iff_not] at this
        exact this hD
      · obtain ⟨f', fs', hfr, ha2, hr2, he2⟩ := hp
        exact ⟨f', fs', hfr, by rw [← ha2.len, ha.len], ⟨L, rfl, ha2, Grows.refl hne _, hr2, he2⟩⟩
  | ifS c b elifs els =>
    have ht' : tameE A c = true ∧ tameB A D b = true ∧ tameL A D elifs = true ∧ ∀ d, els = some d → tameB A D d = true := by
      cases els with
      | none =>
        simp only [tameS, Bool.and_eq_true] at ht
        exact ⟨ht.1, ht.2.1, ht.2.2.1, fun d hd => by cases hd⟩
      | some d =>
        simp only [tameS, Bool.and_eq_true] at ht
        exact ⟨ht.1, ht.2.1, ht.2.2.1, fun d' hd => by cases hd; exact ht.2.2.2⟩
    obtain ⟨htc, htb, htl, hte⟩ := ht'
    have go : ∀ {Γ1 Γ3 : List Checker.Frame} {x : Option Ty} {Γ2 : List Checker.Frame}, HasTy R (L ++ [g]) c (.prim .bool) Γ1 →
        BlockTy R (emptyFrame :: Γ1) b x Γ2 → ElifsOk R Γ1 elifs Γ3 →
        (∀ d, els = some d → ∃ y Γ4, BlockTy R (emptyFrame :: Γ3) d y Γ4) →
        Safe X (execStep H f (trS E (.ifS c b elifs els)) st) (fun _ st' => Post A g R L (binds (.ifS c b elifs els)) Γ3 st'.ctx) := by
      intro Γ1 Γ3 x Γ2 h1 h2 h3 h4
      obtain ⟨rfl, -⟩ := statE S.glob ha.loc c htc h1
      obtain rfl := elifs_static S ha.loc elifs h3 htl
      rw [trS_if]
      simp only [execStep]
      refine Safe.bind (hE.truthy (H := H) h1 htc ha) fun t s hs => ?_
      rw [← hs] at ha hr he
      cases t
      · refine (SoundS.elifs S hE hS els elifs h3 (fun d hd => ?_) htl ha hvis hr he).mono fun _ s' hp =>
          Post.same hp.1 hne hp.2.1 hp.2.2
        obtain ⟨y, Γ4, h5⟩ := h4 d hd
        exact ⟨hte d hd, y, Γ4, h5⟩
      · exact (hS.scoped b h2 htb ha hvis hr he).mono fun _ s' hp => Post.same hp.1 hne hp.2.1 hp.2.2
    cases h with
    | ifNone h1 h2 h3 => exact go h1 h2 h3 (fun d hd => by cases hd)
    | ifSome h1 h2 h3 h4 => exact go h1 h2 h3 (fun d hd => by cases hd; exact ⟨_, _, h4⟩)
  | pass =>
    cases h
    exact Post.same ha hne hr he
  | assign l e =>
    cases l with
    | ident x =>
      simp only [tameS, Bool.and_eq_true] at ht
      have htx : isText x = true := by have := ht.1; simp only [varOk, Bool.and_eq_true] at this; exact this.1
      cases h with
      | @assign _ Γ1 _ _ _ t u h1 h2 h3 =>
        obtain ⟨rfl, c1⟩ := statE S.glob ha.loc (.ident x) (by simpa [tameE] using ht.1) h1
        obtain ⟨rfl, -⟩ := statE S.glob ha.loc e ht.2 h2
        simp only [trS, execStep]
        refine Safe.bind (hE h2 ht.2 ha) fun w s hw => ?_
        cases h1 with
        | var hl =>
          have ha' : Agree A L s.ctx.frames := by rw [hw.2]; exact ha
          obtain ⟨fs', hfs, ha2⟩ := ha'.update (v := w) htx (var_local S.glob ht.1 hl) (Fits.up c1.core h3 hw.1)
          have : assignVar (str x) w s = (.ok (), { s with ctx := { s.ctx with frames := fs' } }) := by
            simp [assignVar, modCtx, hfs]
          rw [this]
          exact ⟨L, rfl, ha2, Grows.refl hne _, by show s.ctx.ret = none; rw [hw.2]; exact hr, by show EmitOk R s.ctx.emit; rw [hw.2]; exact he⟩
        | global _ hb =>
          have := ht.1
          simp only [varOk, Checker.isGlobal, Bool.and_eq_true, Bool.not_eq_true', Bool.or_eq_false_iff] at this
          rcases hb with hb | hb <;> simp [hb] at this
    | _ => simp [tameS] at ht
  | exprS e =>
    simp only [tameS] at ht
    cases h with
    | exprS h1 =>
      obtain ⟨rfl, -⟩ := statE S.glob ha.loc e ht h1
      simp only [trS, execStep]
      refine Safe.bind (hE h1 ht ha) fun w s hw => ?_
      rw [← hw.2] at ha hr he
      exact Post.same ha hne hr he
  | ret => simp [tameS] at ht
  | py => simp [tameS] at ht

/-- the whole interpreter -/
theorem sound (S : Setup H E A X g) (limit : Nat) : ∀ n, SoundE E A X g (interp H (trMod E limit A.mod) n) ∧
    SoundS E A X g (interp H (trMod E limit A.mod) n)
  | 0 => ⟨fun _ _ _ => trivial, fun _ _ _ _ _ _ _ => trivial⟩
  | n + 1 => ⟨stepE S limit n (sound S limit n).1 (sound S limit n).2, stepS S limit n (sound S limit n).1 (sound S limit n).2⟩

/-- the parameters given to `execute` -/
theorem wrap_sound (hE : SoundE E A X g f) (raw : List (String × Data F)) : ∀ (ps : List Param) (d : List (String × Val F)) {st : St F},
    ps.all (tameP A) = true → (∀ p ∈ ps, DfltOk p) → (ps.map (·.name)).Nodup → st.ctx.frames = [[]] →
    (∀ p ∈ ps, (∀ x, dget raw (str p.name) = some x → ∀ q, primOf p.ty = some q → Exact (.prim q) x) ∧
      (p.dflt = none → (dget raw (str p.name)).isSome = true)) →
    Safe X (wrapParams f raw (ps.map (trParam E)) d st) (fun d' st' => st'.ctx = st.ctx ∧ (∀ p ∈ ps, ParamVal d' p) ∧
      ∀ n, isText n = true → n ∉ ps.map (·.name) → dget d' (str n) = dget d (str n))
  | [], d, st, _, _, _, _, _ => by exact ⟨rfl, by simp, fun n _ _ => rfl⟩
  | p :: ps, d, st, ht, hdo, hn, hfr, hraw => by
    simp only [List.all_cons, Bool.and_eq_true] at ht
    have htp := ht.1
    simp only [tameP, Bool.and_eq_true] at htp
    obtain ⟨⟨htx, -⟩, hprim, hlit⟩ := htp
    obtain ⟨q, hq⟩ := Option.isSome_iff_exists.1 hprim
    simp only [List.map_cons, List.nodup_cons] at hn
    have rest : ∀ (w : Val F) (s : St F), Fits (.prim q) w → s.ctx = st.ctx →
        Safe X (wrapParams f raw (ps.map (trParam E)) (dset d (str p.name) w) s) (fun d' st' => st'.ctx = st.ctx ∧ (∀ p' ∈ p :: ps, ParamVal d' p') ∧
          ∀ n, isText n = true → n ∉ (p :: ps).map (·.name) → dget d' (str n) = dget d (str n)) := by
      intro w s hw hs
      refine (wrap_sound hE raw ps (dset d (str p.name) w) ht.2 (fun p' hp' => hdo p' (by simp [hp'])) hn.2 (by rw [hs]; exact hfr)
        (fun p' hp' => hraw p' (by simp [hp']))).mono fun d' s' h' => ?_
      refine ⟨by rw [h'.1, hs], fun p' hp' => ?_, fun n hnt hnn => ?_⟩
      · rcases List.mem_cons.1 hp' with rfl | hp'
        · intro q' hq'
          rw [hq] at hq'
          cases hq'
          exact ⟨w, by rw [h'.2.2 _ htx hn.1]; exact dget_dset_same _ _ _, hw⟩
        · exact h'.2.1 p' hp'
      · simp only [List.map_cons, List.mem_cons, not_or] at hnn
        rw [h'.2.2 n hnt hnn.2, dget_dset_other _ _ _ _ (fun e => hnn.1 (str_inj hnt htx e))]
    obtain ⟨hr1, hr2⟩ := hraw p (by simp)
    have hann : (annOf p.ty) = some (.prim q) := by
      cases hty : p.ty with
      | none => rw [hty] at hq; simp [primOf] at hq
      | some a =>
        rw [hty] at hq
        cases a with
        | simple m =>
          simp only [primOf] at hq
          split at hq
          next q' hq' => cases hq; simp [annOf, hq']
          · cases hq
        | _ => simp [primOf] at hq
    cases hg : dget raw (str p.name) with
    | some x =>
      simp only [List.map_cons, wrapParams, trParam, hg, hann, Option.getD_some]
      exact rest _ st ⟨Types.C25_reflexive _, hr1 x hg q hq, fun _ => rfl⟩ rfl
    | none =>
      cases hd : p.dflt with
      | none => rw [hg] at hr2; simp at hr2; simp [hd] at hr2
      | some e =>
        rw [hd] at hlit
        cases e with
        | lit k v =>
          obtain ⟨hacc, hne⟩ := hdo p (by simp) k v q hd hq
          have hty : HasTy none ([emptyFrame] ++ [g]) (.lit k v) (Checker.litTy k) ([emptyFrame] ++ [g]) := .lit hne
          simp only [List.map_cons, wrapParams, trParam, hg, hd, Option.map_some]
          refine Safe.bind (hE hty (by simpa [tameE] using hlit) (by
            rw [hfr]
            exact ⟨fun n y hy => by simp [emptyFrame] at hy, fun _ _ _ _ => rfl, trivial⟩)) fun w s hw => ?_
          exact rest w s (Fits.up rfl hacc hw.1) hw.2
        | _ => simp at hlit

/-- how a run of the fragment may end -/
def Fine (X : Err → Prop) (c : Fn) : Except Exn (Result F) → Prop
  | .ok r => (r.success = true → ∃ v md, r.emit = some (v, md) ∧ ∀ a t, c.ret = some a → Denotes a t → core t = true → Exact t v.data) ∧
      ∀ msg, r.error = some msg → Benign X (.rt msg) ∨ msg = "Command did not emit any geometry"
  | .error (.py e) => Benign X e
  | .error .outOfFuel => True

theorem execute_sound (S : Setup H E A X g) (limit fuel : Nat) {c : Fn} (hc : A.mod.functions.find? (fun d => d.name == c.name) = some c)
    (raw : List (String × Data F)) (hraw : RawOk c raw) :
    Fine X c (execute H (trMod E limit A.mod) fuel (str c.name) raw).1 := by
  have hmem := List.mem_of_find?_eq_some hc
  obtain ⟨htx, htp, htb⟩ := tame_fn S hmem
  obtain ⟨Γ, Γ', x, hps, hb⟩ := S.cmds c hmem
  obtain ⟨γ', rfl, hnd, -, hdfo, -⟩ := params_static c.params htp hps
  have hfc : findCmd (trMod E limit A.mod) (str c.name) = some (trFn E c) := by rw [find_cmd S limit htx, hc]; rfl
  obtain ⟨hE, hS⟩ := sound S limit fuel
  have hw := wrap_sound hE raw c.params [] (st := st0) htp hdfo hnd rfl hraw
  unfold execute
  simp only [hfc]
  change Safe X (wrapParams (interp H (trMod E limit A.mod) fuel) raw (trFn E c).params [] st0) _ at hw
  cases hwr : wrapParams (interp H (trMod E limit A.mod) fuel) raw (trFn E c).params [] st0 with
  | mk r s =>
    rw [hwr] at hw
    cases r with
    | error e => cases e with
      | py e => exact hw
      | outOfFuel => trivial
    | ok d =>
      obtain ⟨hs, hvals, -⟩ := hw
      have hrun := cmd_sound S hS hmem hvals (st := { s with ctx := freshCtx s.depth d }) ⟨rfl, rfl, rfl⟩
      change Safe X (runBody (interp H (trMod E limit A.mod) fuel) (trFn E c).body _) _ at hrun
      simp only
      cases hrr : runBody (interp H (trMod E limit A.mod) fuel) (trFn E c).body { s with ctx := freshCtx s.depth d } with
      | mk r s' =>
        rw [hrr] at hrun
        cases r with
        | error e => cases e with
          | outOfFuel => trivial
          | py e => cases e with
            | rt m =>
              refine ⟨fun h => (by cases h), fun msg h => ?_⟩
              cases h
              exact .inl hrun
            | other m => exact hrun
        | ok u =>
          have hap : applyHint H (trFn E c) s' = (.ok (), s') := by simp [applyHint, trFn, S.hint c hmem]
          simp only [hap]
          split
          · exact ⟨fun h => (by cases h), fun msg h => (by cases h)⟩
          split
          · refine ⟨fun h => (by cases h), fun msg h => ?_⟩
            cases h
            exact .inr rfl
          next hne =>
            refine ⟨fun _ => ?_, fun msg h => (by cases h)⟩
            cases hem : s'.ctx.emit with
            | none => rw [hem] at hne; simp at hne
            | some vm =>
              obtain ⟨v, md⟩ := vm
              exact ⟨v, md, rfl, fun a t hr hden hcore => (hrun v md a t hem hr hden hcore).exact hcore⟩

/-- the global scope of a well-typed module without native code -/
theorem glob_of {m : Mod} (hb : m.blocks = []) (hn : m.natives = []) {G : List (Name × Symb)} (h : List.Forall₂ ItemSym (items m) G)
    (hnd : (G.map (·.1)).Nodup) : GlobOk m (frameOf G) := by
  simp only [items, hb, hn, List.flatMap_nil, List.map_nil, List.nil_append] at h
  intro n y hy
  generalize m.functions = l at h
  induction l generalizing G with
  | nil => cases h; simp [frameOf, dget] at hy
  | cons c cs ih =>
    cases h with
    | @cons _ e _ G' h1 h2 =>
      obtain ⟨ps, r, rfl, hps, hr⟩ := h1
      simp only [List.map_cons, List.nodup_cons] at hnd
      simp only [frameOf, dget] at hy
      simp only [List.find?_cons]
      split at hy
      next he =>
        cases hy
        exact ⟨c, by simp [he], ps, r, rfl, hps, hr⟩
      next he =>
        obtain ⟨c', hc', h⟩ := ih (G := G') hnd.2 hy h2
        refine ⟨c', ?_, h⟩
        have : (c.name == n) = false := by simpa using he
        rw [this]
        exact hc'

end Verif.Pipe
