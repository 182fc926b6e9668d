import Verif.Pipe.Sound

/-!
# Accepted programs of the fragment do not go wrong: calls, and the whole interpreter
-/

namespace Verif.Pipe

open Verif.Types (Ty accepts commonType isNumeric)
open Verif.Parser (Name Mod Fn Param Block)
open Verif.Checker (HasTy ArgsTy NamedOk StmtOk StmtsOk BlockTy ElifsOk Symb Kind setTop bindFree topFree frameOf
  ItemSym items Denotes DenotesOpt emptyFrame resolveName lookupBuiltin fnTy ParamsOk CmdOk)
open Verif.Interp hiding lookup Param
open Verif.Dict

variable {F : Type} {H : Host F} {E : Enc F} {A : Lang} {X : Err → Prop} {g : Checker.Frame} {f : Fns F}

/-! ### parameters -/

/-- the value of a parameter -/
def ParamVal (d : List (String × Val F)) (p : Param) : Prop :=
  ∀ q, primOf p.ty = some q → ∃ v, dget d (str p.name) = some v ∧ Fits (.prim q) v

/-- a literal default that fits the annotation -/
def DfltOk (p : Param) : Prop :=
  ∀ k v q, p.dflt = some (.lit k v) → primOf p.ty = some q → accepts (.prim q) (Checker.litTy k) = true ∧ Checker.litTy k ≠ .error

theorem setTop_cons (γ : Checker.Frame) (L : List Checker.Frame) (n : Name) (y : Symb) :
    setTop (γ :: L) n y = (fun m => if m = n then some y else γ m) :: L := rfl

/-- what checking the parameters of a command gives -/
theorem params_static {R : Option Parser.Ty} : ∀ (ps : List Param) {γ : Checker.Frame} {Γ : List Checker.Frame},
    ps.all (tameP A) = true → ParamsOk R [γ, g] ps Γ →
    ∃ γ', Γ = [γ', g] ∧ (ps.map (·.name)).Nodup ∧ (∀ p ∈ ps, γ p.name = none) ∧ (∀ p ∈ ps, DfltOk p) ∧
      ∀ n y, γ' n = some y → γ n = some y ∨ ∃ p ∈ ps, p.name = n ∧ y.kind = .param ∧ DenotesOpt p.ty y.ty
  | [], γ, Γ, _, h => by
    cases h
    exact ⟨γ, rfl, by simp, by simp, by simp, fun n y h => .inl h⟩
  | p :: ps, γ, Γ, ht, h => by
    simp only [List.all_cons, Bool.and_eq_true] at ht
    have fin : ∀ {t : Ty}, DenotesOpt p.ty t → topFree [γ, g] p.name → DfltOk p → ParamsOk R [(fun m => if m = p.name then some ⟨.param, t⟩ else γ m), g] ps Γ →
        ∃ γ', Γ = [γ', g] ∧ ((p :: ps).map (·.name)).Nodup ∧ (∀ q ∈ p :: ps, γ q.name = none) ∧ (∀ q ∈ p :: ps, DfltOk q) ∧
        ∀ n y, γ' n = some y → γ n = some y ∨ ∃ q ∈ p :: ps, q.name = n ∧ y.kind = .param ∧ DenotesOpt q.ty y.ty := by
      intro t hd hfree hdf hps
      obtain ⟨f', fs, he, hf⟩ := hfree
      cases he
      obtain ⟨γ', rfl, hnd, hnone, hdfl, hdom⟩ := params_static ps ht.2 hps
      have hne : ∀ q ∈ ps, q.name ≠ p.name := fun q hq he => by
        have := hnone q hq
        simp [he] at this
      refine ⟨γ', rfl, ?_, ?_, ?_, ?_⟩
      · simp only [List.map_cons, List.nodup_cons]
        refine ⟨fun hm => ?_, hnd⟩
        obtain ⟨q, hq, he⟩ := List.mem_map.1 hm
        exact hne q hq he
      · intro q hq
        rcases List.mem_cons.1 hq with rfl | hq
        · exact hf
        · have := hnone q hq
          simpa [hne q hq] using this
      · intro q hq
        rcases List.mem_cons.1 hq with rfl | hq
        · exact hdf
        · exact hdfl q hq
      · intro n y hy
        rcases hdom n y hy with h | ⟨q, hq, h⟩
        · split at h
          next e =>
            cases h
            exact .inr ⟨p, by simp, e.symm, rfl, hd⟩
          · exact .inl h
        · exact .inr ⟨q, by simp [hq], h⟩
    cases h with
    | plain hd hfree hdf hps => exact fin hd hfree (fun k v q h => by rw [hdf] at h; cases h) hps
    | @dflt _ Γ1 _ _ _ e t u hd hfree hdf hty hacc hps =>
      simp only [tameP, Bool.and_eq_true] at ht
      have hp := ht.1.2
      rw [hdf] at hp
      cases e with
      | lit k v =>
        cases hty with
        | lit hne =>
          refine fin hd hfree (fun k' v' q h hq => ?_) hps
          rw [hdf] at h
          cases h
          rw [primOf_denotes hq hd] at hacc
          exact ⟨hacc, hne⟩
      | _ => simp at hp

theorem names_text {ps : List Param} (ht : ps.all (tameP A) = true) : ∀ p ∈ ps, isText p.name = true := by
  intro p hp
  have := List.all_eq_true.1 ht p hp
  simp only [tameP, Bool.and_eq_true] at this
  exact this.1.1

/-- default values -/
theorem fill_sound (hE : SoundE E A X g f) {L : List Checker.Frame} : ∀ (ps : List Param) (d : List (String × Val F)) {st : St F},
    ps.all (tameP A) = true → (∀ p ∈ ps, p.dflt.isSome = true ∧ DfltOk p) → (ps.map (·.name)).Nodup → Agree A L st.ctx.frames →
    Safe X (fillDefaults f (ps.map (trParam E)) d st) (fun d' st' => st'.ctx = st.ctx ∧ (∀ p ∈ ps, ParamVal d' p) ∧
      ∀ n, isText n = true → n ∉ ps.map (·.name) → dget d' (str n) = dget d (str n))
  | [], d, st, _, _, _, _ => by exact ⟨rfl, by simp, fun n _ _ => rfl⟩
  | p :: ps, d, st, ht, hd, hn, ha => by
    simp only [List.all_cons, Bool.and_eq_true] at ht
    obtain ⟨hds, hdo⟩ := hd p (by simp)
    have htp := ht.1
    simp only [tameP, Bool.and_eq_true] at htp
    obtain ⟨⟨htx, -⟩, hprim, hlit⟩ := htp
    obtain ⟨q, hq⟩ := Option.isSome_iff_exists.1 hprim
    obtain ⟨e, he⟩ := Option.isSome_iff_exists.1 hds
    rw [he] at hlit
    cases e with
    | lit k v =>
      obtain ⟨hacc, hne⟩ := hdo k v q he hq
      have hty : HasTy none (L ++ [g]) (.lit k v) (Checker.litTy k) (L ++ [g]) := .lit hne
      simp only [List.map_cons, fillDefaults, trParam, he, Option.map_some]
      refine Safe.bind (hE hty (by simpa [tameE] using hlit) ha) fun w s hw => ?_
      have ha' : Agree A L s.ctx.frames := by rw [hw.2]; exact ha
      simp only [List.map_cons, List.nodup_cons] at hn
      refine (fill_sound hE ps (dset d (str p.name) w) ht.2 (fun p' hp' => hd p' (by simp [hp'])) hn.2 ha').mono fun d' s' hs => ?_
      refine ⟨by rw [hs.1, hw.2], fun p' hp' => ?_, fun n hnt hnn => ?_⟩
      · rcases List.mem_cons.1 hp' with rfl | hp'
        · intro q' hq'
          rw [hq] at hq'
          cases hq'
          exact ⟨w, by rw [hs.2.2 _ htx hn.1]; exact dget_dset_same _ _ _, Fits.up rfl hacc hw.1⟩
        · exact hs.2.1 p' hp'
      · simp only [List.mem_cons, not_or] at hnn
        rw [hs.2.2 n hnt hnn.2, dget_dset_other _ _ _ _ (fun e => hnn.1 (str_inj hnt htx e))]
    | _ => simp at hlit

/-- arguments bound to parameters -/
theorem bind_vals : ∀ (ps : List Param) (vs : List (Val F)) (d : List (String × Val F)), (∀ p ∈ ps, isText p.name = true) →
    (ps.map (·.name)).Nodup →
    let r := ((ps.map (trParam E)).zip vs).foldl (fun d (p : Interp.Param F × Val F) => dset d p.1.name p.2) d
    (∀ (i : Nat) (p : Param) (v : Val F), ps[i]? = some p → vs[i]? = some v → dget r (str p.name) = some v) ∧
    ∀ n, isText n = true → n ∉ ps.map (·.name) → dget r (str n) = dget d (str n)
  | [], vs, d, _, _ => by simp
  | p :: ps, [], d, _, _ => by simp
  | p :: ps, v :: vs, d, ht, hn => by
    simp only [List.map_cons, List.nodup_cons] at hn
    obtain ⟨h1, h2⟩ := bind_vals ps vs (dset d (str p.name) v) (fun p hp => ht p (by simp [hp])) hn.2
    simp only [List.map_cons, List.zip_cons_cons, List.foldl_cons]
    refine ⟨fun i p' v' hp' hv' => ?_, fun n hnt hnn => ?_⟩
    · cases i with
      | zero =>
        simp only [List.getElem?_cons_zero, Option.some.injEq] at hp' hv'
        subst hp' hv'
        exact (h2 p.name (ht p (by simp)) hn.1).trans (dget_dset_same _ _ _)
      | succ i =>
        simp only [List.getElem?_cons_succ] at hp' hv'
        exact h1 i p' v' hp' hv'
    · simp only [List.mem_cons, not_or] at hnn
      exact (h2 n hnt hnn.2).trans (dget_dset_other _ _ _ _ (fun e => hnn.1 (str_inj hnt (ht p (by simp)) e)))

/-- the parameters agree with the scope of the command -/
theorem params_agree {γ' : Checker.Frame} {ps : List Param} (ht : ps.all (tameP A) = true)
    (hdom : ∀ n y, γ' n = some y → ∃ p ∈ ps, p.name = n ∧ y.kind = .param ∧ DenotesOpt p.ty y.ty) {d : List (String × Val F)}
    (hd : ∀ p ∈ ps, ParamVal d p) : Agree A [γ'] [d] := by
  refine ⟨fun n y hy => ?_, fun n _ _ _ => rfl, trivial⟩
  obtain ⟨p, hp, rfl, hk, hden⟩ := hdom n y hy
  have := List.all_eq_true.1 ht p hp
  simp only [tameP, Bool.and_eq_true, Bool.not_eq_true'] at this
  obtain ⟨q, hq, hy⟩ := primOf_isSome this.2.1 hden
  obtain ⟨v, hv, hf⟩ := hd p hp q hq
  exact ⟨this.1.1, by rw [this.1.2, hy]; rfl, .inr hk, v, hv, by rw [hy]; exact hf⟩

theorem tame_fn (S : Setup H E A X g) {c : Fn} (hc : c ∈ A.mod.functions) :
    isText c.name = true ∧ c.params.all (tameP A) = true ∧ tameB A (c.params.map (·.name)) c.body = true := by
  have := S.tame
  simp only [tameMod, Bool.and_eq_true] at this
  have := List.all_eq_true.1 this.2.2 c hc
  simpa only [tameFn, Bool.and_eq_true] using this

/-- the body of a command with parameters that fit -/
theorem cmd_sound (S : Setup H E A X g) (hS : SoundS E A X g f) {c : Fn} (hc : c ∈ A.mod.functions) {d : List (String × Val F)}
    (hd : ∀ p ∈ c.params, ParamVal d p) {st : St F} (hst : st.ctx.frames = [d] ∧ st.ctx.ret = none ∧ st.ctx.emit = none) :
    Safe X (runBody f (trB E c.body) st) (fun _ st' => EmitOk c.ret st'.ctx.emit) := by
  obtain ⟨htx, htp, htb⟩ := tame_fn S hc
  obtain ⟨Γ, Γ', x, hps, hb⟩ := S.cmds c hc
  obtain ⟨γ', rfl, hnd, -, -, hdom⟩ := params_static c.params htp hps
  have hdom' : ∀ n y, γ' n = some y → ∃ p ∈ c.params, p.name = n ∧ y.kind = .param ∧ DenotesOpt p.ty y.ty := by
    intro n y hy
    rcases hdom n y hy with h | h
    · simp [emptyFrame] at h
    · exact h
  refine (hS.block c.body (L := [γ']) hb htb (by rw [hst.1]; exact params_agree htp hdom' hd) (by simp) (fun n hn => ?_) hst.2.1
    (by rw [hst.2.2]; intro v md a r h; cases h)).mono fun _ s hs => ?_
  · cases hg : γ' n with
    | none => simp [Checker.lookup, hg] at hn
    | some y =>
      obtain ⟨p, hp, rfl, -⟩ := hdom' n y hg
      exact List.mem_map.2 ⟨p, hp, rfl⟩
  · obtain ⟨L', -, -, -, h⟩ := hs
    exact h

theorem filter_drop {α : Type} (l : List α) (q : α → Bool) (k : Nat) (h : ∀ a ∈ l.drop k, q a = false) : (l.filter q).length ≤ k := by
  calc (l.filter q).length = ((l.take k ++ l.drop k).filter q).length := by rw [List.take_append_drop]
    _ = ((l.take k).filter q).length := by
      have : (l.drop k).filter q = [] := List.filter_eq_nil_iff.2 fun a ha => by simp [h a ha]
      rw [List.filter_append, this, List.append_nil]
    _ ≤ (l.take k).length := List.length_filter_le _ _
    _ ≤ k := by simp [List.length_take]

/-- a call of a command -/
theorem call_sound (S : Setup H E A X g) (P : Prog F) (hE : SoundE E A X g f) (hS : SoundS E A X g f) {c : Fn}
    (hc : c ∈ A.mod.functions) {vs : List (Val F)} (ptys : List Ty)
    (hpt : List.Forall₂ (fun p t => DenotesOpt p.ty t) c.params ptys) (hvs : List.Forall₂ Fits (ptys.take vs.length) vs)
    (hlen : vs.length ≤ c.params.length) (hdf : (c.params.drop vs.length).all (fun p => p.dflt.isSome) = true)
    {L : List Checker.Frame} {st : St F} (ha : Agree A L st.ctx.frames) {p : Types.Prim} (hp : primOf c.ret = some p) (hpb : p ≠ .bool) :
    Safe X (callCommand H P f (trFn E c) vs st) (fun v st' => Fits (.prim p) v ∧ st'.ctx = st.ctx) := by
  obtain ⟨htx, htp, htb⟩ := tame_fn S hc
  obtain ⟨Γ, Γ', x, hps, hb⟩ := S.cmds c hc
  obtain ⟨γ', rfl, hnd, -, hdfo, -⟩ := params_static c.params htp hps
  unfold callCommand
  split
  · exact Benign.depth
  apply Safe.fin
  unfold callBody
  have hreq : requiredCount (trFn E c) ≤ vs.length := by
    unfold requiredCount
    simp only [trFn, List.filter_map, List.length_map]
    apply filter_drop
    intro q hq
    have := List.all_eq_true.1 hdf q hq
    obtain ⟨e, he⟩ := Option.isSome_iff_exists.1 this
    simp [trParam, he]
  rw [if_neg (by
    simp only [not_or, not_lt]
    exact ⟨hreq, by simpa [trFn] using hlen⟩)]
  have hdrop : (c.params.drop vs.length).all (tameP A) = true :=
    List.all_eq_true.2 fun q hq => List.all_eq_true.1 htp q (List.mem_of_mem_drop hq)
  have hnd' : ((c.params.drop vs.length).map (·.name)).Nodup := by
    rw [List.map_drop]
    exact hnd.sublist (List.drop_sublist _ _)
  have hargs := bind_vals (E := E) c.params vs [] (names_text htp) hnd
  simp only [trFn, ← List.map_drop]
  refine Safe.bind (fill_sound (L := L) hE (c.params.drop vs.length) _ hdrop (fun q hq => ⟨List.all_eq_true.1 hdf q hq,
    hdfo q (List.mem_of_mem_drop hq)⟩) hnd' ha) fun d s hs => ?_
  obtain ⟨hs1, hs2, hs3⟩ := hs
  have hd : ∀ q ∈ c.params, ParamVal d q := by
    intro q hq
    rw [← List.take_append_drop vs.length c.params] at hq
    rcases List.mem_append.1 hq with hq' | hq'
    · obtain ⟨i, hi, rfl⟩ := List.mem_take_iff_getElem.1 hq'
      have hi1 : i < vs.length := by omega
      have hi2 : i < c.params.length := by omega
      intro r hr
      have hv := hargs.1 i _ vs[i] (List.getElem?_eq_getElem hi2) (List.getElem?_eq_getElem hi1)
      refine ⟨vs[i], ?_, ?_⟩
      · rw [hs3 _ (names_text htp _ (List.getElem_mem hi2))]
        · exact hv
        · intro hm
          obtain ⟨q', hq', he⟩ := List.mem_map.1 hm
          obtain ⟨j, hj, rfl⟩ := List.mem_drop_iff_getElem.1 hq'
          have := (List.Nodup.getElem_inj_iff hnd (i := vs.length + j) (j := i) (hi := by simp at hj ⊢; omega) (hj := by simpa using hi2)).1
            (by simpa using he)
          omega
      · have hpi := List.forall₂_iff_get.1 hpt
        have hvi := List.forall₂_iff_get.1 hvs
        have hit : i < (ptys.take vs.length).length := by rw [hvi.1]; exact hi1
        have h1 := hvi.2 i hit hi1
        have h2 := hpi.2 i hi2 (by rw [← hpi.1]; exact hi2)
        simp only [List.get_eq_getElem, List.getElem_take] at h1 h2
        rw [primOf_denotes hr h2] at h1
        exact h1
    · exact hs2 q hq'
  unfold inNewCtx
  apply Safe.fin
  unfold cmdBody
  refine Safe.bind (Q := fun _ s' => s'.ctx = freshCtx s.depth d) rfl fun _ s' hs' => ?_
  refine Safe.bind (cmd_sound S hS hc hd ⟨by rw [hs']; rfl, by rw [hs']; rfl, by rw [hs']; rfl⟩) fun _ s'' he => ?_
  have hap : applyHint H ⟨str c.name, c.params.map (trParam E), trB E c.body, E.hint c⟩ s'' = (.ok (), s'') := by
    simp [applyHint, S.hint c hc]
  refine Safe.bind (Q := fun _ s3 => s3 = s'') (by rw [hap]; exact rfl) fun _ s3 h3 => ?_
  subst h3
  unfold emittedVal
  cases hem : s3.ctx.emit with
  | none => exact Benign.noEmit
  | some vm =>
    obtain ⟨v, md⟩ := vm
    refine ⟨?_, hs1⟩
    have hret : ∃ a, c.ret = some a ∧ Denotes a (.prim p) := by
      cases hr : c.ret with
      | none => rw [hr] at hp; simp [primOf] at hp
      | some a =>
        refine ⟨a, rfl, ?_⟩
        rw [hr] at hp
        cases a with
        | simple n =>
          simp only [primOf] at hp
          split at hp
          next q hq =>
            cases hp
            exact .simple hq
          · cases hp
        | _ => simp [primOf] at hp
    obtain ⟨a, hr, hden⟩ := hret
    have hfit := he v md a (.prim p) hem hr hden rfl
    refine ⟨hfit.1, hfit.2.1, fun hb => ?_⟩
    dsimp only at hb
    obtain ⟨q, hq, hpq⟩ := accepts_prim hfit.1
    rw [hb] at hq
    cases hq
    rcases hpq with h | ⟨_, h⟩
    · exact absurd h hpb
    · cases h

theorem find_cmd (S : Setup H E A X g) (limit : Nat) {n : Name} (hn : isText n = true) :
    findCmd (trMod E limit A.mod) (str n) = (A.mod.functions.find? (fun c => c.name == n)).map (trFn E) := by
  unfold findCmd trMod
  have htx : ∀ c ∈ A.mod.functions, isText c.name = true := fun c hc => (tame_fn S hc).1
  simp only
  generalize A.mod.functions = l at htx
  induction l with
  | nil => rfl
  | cons c cs ih =>
    have ih := ih (fun c hc => htx c (by simp [hc]))
    simp only [List.map_cons, List.find?_cons]
    have : ((trFn E c).name == str n) = (c.name == n) := by
      have := htx c (by simp)
      rw [Bool.eq_iff_iff]
      simp only [beq_iff_eq, trFn]
      exact ⟨fun h => str_inj this hn h, fun h => by rw [h]⟩
    rw [this]
    cases c.name == n
    · exact ih
    · rfl

/-! ### one level of the interpreter -/

theorem litVal_fits {k : String} {v : Lexer.TVal} (h : litOk k v = true) :
    ∃ l : Lit F, litOf E k v = some l ∧ Fits (Checker.litTy k) (litVal l) := by
  cases v with
  | none => simp [litOk] at h
  | int n => simp [litOk] at h; subst h; exact ⟨.int n, rfl, Fits.int _ _⟩
  | float l => simp [litOk] at h; subst h; exact ⟨.flt (E.flt l), rfl, Fits.flt _ _⟩
  | bool b => simp [litOk] at h; subst h; exact ⟨.bool b, rfl, Fits.bool _⟩
  | text s => simp [litOk] at h; subst h; exact ⟨.str _, rfl, by simp [Fits, accepts, Exact, litVal, strVal, Checker.litTy]⟩

theorem binTy_op {op : String} {a b t : Ty} (h : Checker.BinTy op a b t) : ∃ o, opOf op = some o := by
  cases h with
  | int hop => simp only [List.mem_cons, List.mem_nil_iff, or_false] at hop; rcases hop with rfl | rfl | rfl | rfl | rfl <;> exact ⟨_, rfl⟩
  | div => exact ⟨_, rfl⟩
  | floorDiv => exact ⟨_, rfl⟩
  | floatL hop => simp only [List.mem_cons, List.mem_nil_iff, or_false] at hop; rcases hop with rfl | rfl | rfl | rfl | rfl <;> exact ⟨_, rfl⟩
  | floatR hop => simp only [List.mem_cons, List.mem_nil_iff, or_false] at hop; rcases hop with rfl | rfl | rfl | rfl | rfl <;> exact ⟨_, rfl⟩
  | geoScalar hop =>
    simp only [Checker.arithOps, List.mem_cons, List.mem_nil_iff, or_false] at hop
    rcases hop with rfl | rfl | rfl | rfl | rfl | rfl | rfl <;> exact ⟨_, rfl⟩
  | geoSum hop => rcases hop with rfl | rfl <;> exact ⟨_, rfl⟩
  | concat => exact ⟨_, rfl⟩
  | compare hop => simp only [List.mem_cons, List.mem_nil_iff, or_false] at hop; rcases hop with rfl | rfl | rfl | rfl <;> exact ⟨_, rfl⟩
  | equal hop => rcases hop with rfl | rfl <;> exact ⟨_, rfl⟩
  | logic hop => rcases hop with rfl | rfl <;> exact ⟨_, rfl⟩

/-- a literal -/
theorem lit_value (n limit : Nat) {k : String} {v : Lexer.TVal} (h : litOk k v = true) (st : St F) :
    Safe X ((interp H (trMod E limit A.mod) n).ev (trE E (.lit k v)) st) (fun w s => s.ctx = st.ctx ∧ w.ty = Checker.litTy k ∧
      Exact (Checker.litTy k) w.data) := by
  cases n with
  | zero => trivial
  | succ n =>
    cases v with
    | none => simp [litOk] at h
    | int n => simp [litOk] at h; subst h; exact ⟨rfl, rfl, trivial⟩
    | float l => simp [litOk] at h; subst h; exact ⟨rfl, rfl, trivial⟩
    | bool b => simp [litOk] at h; subst h; exact ⟨rfl, rfl, trivial⟩
    | text s => simp [litOk] at h; subst h; exact ⟨rfl, rfl, trivial⟩

/-- the elements of a list literal -/
theorem lits_sound (n limit : Nat) {k : String} : ∀ (es : List Parser.Expr) {st : St F}, litsOf k es = true →
    Safe X (mapM (interp H (trMod E limit A.mod) n).ev (trEs E es) st) (fun vs st' => st'.ctx = st.ctx ∧ vs.length = es.length ∧
      ∀ v ∈ vs, v.ty = Checker.litTy k ∧ Exact (Checker.litTy k) v.data)
  | [], st, _ => by exact ⟨rfl, rfl, by simp⟩
  | e :: es, st, hl => by
    cases e with
    | lit k' v =>
      simp only [litsOf, Bool.and_eq_true, beq_iff_eq] at hl
      obtain ⟨⟨rfl, hl1⟩, hl2⟩ := hl
      refine Safe.bind (lit_value n limit hl1 st) fun w s hw => ?_
      refine Safe.bind (lits_sound n limit es hl2) fun ws s' hs => ?_
      refine ⟨by rw [hs.1, hw.1], by simp [hs.2.1], fun v hv => ?_⟩
      rcases List.mem_cons.1 hv with rfl | hv
      · exact hw.2
      · exact hs.2.2 v hv
    | _ => simp [litsOf] at hl

/-- a number literal as an exponent -/
theorem numLit_value (n : Nat) (limit : Nat) {r : Parser.Expr} (h : isNumLit r = true) (st : St F) :
    Safe X ((interp H (trMod E limit A.mod) n).ev (trE E r) st) (fun v s => ExpOk v ∧ s.ctx = st.ctx) := by
  cases r with
  | lit k v =>
    simp only [isNumLit, Bool.and_eq_true, Bool.or_eq_true, beq_iff_eq] at h
    obtain ⟨hl, hk⟩ := h
    cases n with
    | zero => trivial
    | succ n =>
      cases v with
      | int i =>
        simp [litOk] at hl
        subst hl
        exact ⟨.inl ⟨i, rfl, rfl⟩, rfl⟩
      | float l =>
        simp [litOk] at hl
        subst hl
        exact ⟨.inr ⟨_, rfl⟩, rfl⟩
      | bool b => simp [litOk] at hl; subst hl; simp at hk
      | text s => simp [litOk] at hl; subst hl; simp at hk
      | none => simp [litOk] at hl
  | _ => simp [isNumLit] at h

theorem Safe.and {α : Type} {r : Except Exn α × St F} {Q Q' : α → St F → Prop} (h : Safe X r Q) (h' : Safe X r Q') :
    Safe X r (fun a s => Q a s ∧ Q' a s) := by
  obtain ⟨r, s⟩ := r
  cases r with
  | ok a => exact ⟨h, h'⟩
  | error e => cases e <;> exact h

theorem stepE (S : Setup H E A X g) (limit n : Nat) (hE : SoundE E A X g (interp H (trMod E limit A.mod) n))
    (hS : SoundS E A X g (interp H (trMod E limit A.mod) n)) : SoundE E A X g (interp H (trMod E limit A.mod) (n + 1)) := by
  intro R L e t Γ' st h ht ha
  show Safe X (evalStep H (trMod E limit A.mod) (interp H (trMod E limit A.mod) n) (trE E e) st) _
  set f := interp H (trMod E limit A.mod) n with hf
  cases e with
  | lit k v =>
    simp only [tameE] at ht
    cases h
    obtain ⟨l, hl, hfit⟩ := litVal_fits (E := E) ht
    simp only [trE, hl]
    exact ⟨hfit, rfl⟩
  | ident x =>
    simp only [tameE] at ht
    cases h with
    | var hl =>
      have htx : isText x = true := by simp only [varOk, Bool.and_eq_true] at ht; exact ht.1
      obtain ⟨-, v, hv, hfit⟩ := ha.lookup htx (var_local S.glob ht hl)
      simp only [trE, evalStep, evIdent, hv]
      exact ⟨hfit, rfl⟩
    | global _ hb =>
      simp only [varOk, Checker.isGlobal, Bool.and_eq_true, Bool.not_eq_true', Bool.or_eq_false_iff] at ht
      rcases hb with hb | hb <;> simp [hb] at ht
  | bin op l r =>
    simp only [tameE, Bool.and_eq_true, Bool.or_eq_true, bne_iff_ne, ne_eq, Bool.not_eq_true'] at ht
    obtain ⟨hl, hr, hstar, hp⟩ := ht
    cases h with
    | @bin _ _ _ _ _ _ tl tr _ h1 h2 h3 =>
      obtain ⟨rfl, c1⟩ := statE S.glob ha.loc l hl h1
      obtain ⟨o, ho⟩ := binTy_op h3
      simp only [trE, ho, evalStep]
      refine Safe.bind (hE h1 hl ha) fun v s hv => ?_
      have ha' : Agree A L s.ctx.frames := by rw [hv.2]; exact ha
      have hexp : op = "DOUBLE_STAR" → Safe X (f.ev (trE E r) s) (fun w s' => ExpOk w ∧ s'.ctx = s.ctx) := by
        intro he
        exact numLit_value n limit (hstar.resolve_left (fun h => h he)) s
      have hrun : Safe X (f.ev (trE E r) s) (fun w s' => (Fits tr w ∧ s'.ctx = s.ctx) ∧ (op = "DOUBLE_STAR" → ExpOk w)) := by
        by_cases he : op = "DOUBLE_STAR"
        · exact ((hE h2 hr ha').and (hexp he)).mono fun w s' hw => ⟨hw.1, fun _ => hw.2.1⟩
        · exact (hE h2 hr ha').mono fun w s' hw => ⟨hw, fun h => absurd h he⟩
      refine Safe.bind hrun fun w s' hw => ?_
      refine (Safe.lift (opVal_res H ho h3 c1.core (fun he => ?_) hv.1 hw.1.1 hw.2)).mono fun u s'' hu => ?_
      · have := hp.resolve_left (fun h => h he)
        rw [this] at c1
        simpa [Cls] using c1
      · exact ⟨hu.1, by rw [hu.2, hw.1.2, hv.2]⟩
  | un op e =>
    simp only [tameE] at ht
    cases h with
    | un h1 h2 =>
      obtain ⟨rfl, c1⟩ := statE S.glob ha.loc e ht h1
      cases h2 with
      | not =>
        simp only [trE, if_true, evalStep]
        refine Safe.bind (hE h1 ht ha) fun v s hv => ?_
        exact (Safe.lift ((unVal_res H hv.1).1 rfl)).mono fun u s' hu => ⟨hu.1, by rw [hu.2, hv.2]⟩
      | num hn =>
        have : ("MINUS" : String) ≠ "NOT" := by decide
        simp only [trE, this, if_false, if_true, evalStep]
        refine Safe.bind (hE h1 ht ha) fun v s hv => ?_
        exact (Safe.lift ((unVal_res H hv.1).2 hn)).mono fun u s' hu => ⟨hu.1, by rw [hu.2, hv.2]⟩
      | geo => have := c1.core; simp [core, isPrim, isPrimList] at this
  | call fn args named =>
    simp only [tameE, Bool.and_eq_true, List.isEmpty_iff] at ht
    obtain ⟨rfl, hargs, hc⟩ := ht
    cases fn with
    | ident x =>
      simp only [callOk, Bool.and_eq_true] at hc
      obtain ⟨htx, hc⟩ := hc
      simp only [trE, trN, evalStep]
      cases h with
      | @builtin _ Γ1 _ _ _ _ sig ts hb hr h1 h2 =>
        have hB : A.builtins x = true := by
          by_contra hn
          simp only [Bool.not_eq_true] at hn
          simp [hn, Checker.isGlobal, hb] at hc
        simp only [hB, if_true, builtinOk, hb, Bool.and_eq_true, Bool.not_eq_true', decide_eq_true_eq] at hc
        obtain ⟨⟨⟨hret, hpar⟩, hlen⟩, hcmd⟩ := hc
        rw [builtinRet_core hret]
        have hcore : ∀ p ∈ sig.params.map (·.2.1), core p = true := by
          intro p hp
          obtain ⟨q, hq, rfl⟩ := List.mem_map.1 hp
          exact List.all_eq_true.1 hpar q hq
        refine Safe.bind (SoundE.args S hE args h1 hargs ha (by simpa using hlen) hcore) fun vs s hvs => ?_
        have hnone : findCmd (trMod E limit A.mod) (str x) = none := by
          rw [find_cmd S limit htx, Option.map_eq_none_iff, List.find?_eq_none]
          simp only [isCmd, List.any_eq_false] at hcmd
          exact hcmd
        obtain ⟨gfn, hg, hok, herr⟩ := S.honest x sig vs hB hb (by rw [hvs.2.1]; exact hr) hvs.1
        simp only [callFn, S.native, hnone, hg]
        refine Safe.bind (Q := fun _ s' => s'.ctx = s.ctx) rfl fun _ s' hs' => ?_
        cases hgv : gfn vs with
        | ok v => exact ⟨hok v hgv, by show s'.ctx = _; rw [hs', hvs.2.2]⟩
        | error e => exact Benign.builtin (herr e hgv)
      | constructor hb hr h1 h2 =>
        have hB : A.builtins x = false := by
          by_contra hn
          simp only [Bool.not_eq_false] at hn
          simp [hn, builtinOk, hb] at hc
        simp [hB, Checker.isGlobal, hr] at hc
      | user hb hr hl hk hy h1 =>
        have hB : A.builtins x = false := by
          by_contra hn
          simp only [Bool.not_eq_false] at hn
          simp [hn, builtinOk, hb] at hc
        obtain ⟨c, hfind, ps, r, rfl, hps, hret⟩ := S.glob x _ (cmd_global ha.loc hl hk)
        obtain ⟨rfl, rfl⟩ := fnTy_inj hy
        simp only [hB, Bool.false_eq_true, if_false, userOk, hfind, Bool.and_eq_true, bne_iff_ne, ne_eq, decide_eq_true_eq] at hc
        obtain ⟨-, ⟨⟨hprim, hnb⟩, hlen⟩, hdf⟩ := hc
        obtain ⟨p, hp, rfl⟩ := primOf_isSome hprim hret
        have hmem := List.mem_of_find?_eq_some hfind
        have hlen2 : c.params.length = ps.length := hps.length_eq
        have hcore : ∀ q ∈ ps, core q = true := by
          intro q hq
          obtain ⟨i, hi, rfl⟩ := List.mem_iff_getElem.1 hq
          have h2 := (List.forall₂_iff_get.1 hps).2 i (by rw [hlen2]; exact hi) hi
          have htp := List.all_eq_true.1 (tame_fn S hmem).2.1 c.params[i] (List.getElem_mem _)
          simp only [tameP, Bool.and_eq_true] at htp
          obtain ⟨q, -, hq⟩ := primOf_isSome htp.2.1 h2
          simp only [List.get_eq_getElem] at hq
          rw [hq]
          rfl
        refine Safe.bind (SoundE.args S hE args h1 hargs ha (by rw [← hlen2]; exact hlen) hcore) fun vs s hvs => ?_
        have hfc : findCmd (trMod E limit A.mod) (str x) = some (trFn E c) := by rw [find_cmd S limit htx, hfind]; rfl
        simp only [callFn, S.native, hfc, List.isEmpty_nil, Bool.not_true, Bool.false_and, Bool.false_eq_true, if_false]
        have ha' : Agree A L s.ctx.frames := by rw [hvs.2.2]; exact ha
        refine (call_sound S _ hE hS hmem ps hps hvs.1 (by rw [hvs.2.1]; exact hlen) (by rw [hvs.2.1]; exact hdf) ha' hp
          (fun e => hnb (by rw [hp, e]))).mono fun v s' hv => ⟨hv.1, by rw [hv.2, hvs.2.2]⟩
      | indirect hn _ => exact absurd rfl (hn x)
    | _ => simp at hc
  | index o i =>
    simp only [tameE, Bool.and_eq_true] at ht
    cases h with
    | index h1 h2 =>
      obtain ⟨rfl, c1⟩ := statE S.glob ha.loc o ht.1 h1
      simp only [trE, evalStep]
      refine Safe.bind (hE h1 ht.1 ha) fun v s hv => ?_
      have ha' : Agree A L s.ctx.frames := by rw [hv.2]; exact ha
      refine Safe.bind (hE h2 ht.2 ha') fun w s' hw => ?_
      exact (Safe.lift (indexVal_res H c1.core hv.1 hw.1)).mono fun u s'' hu => ⟨hu.1, by rw [hu.2, hw.2, hv.2]⟩
  | list es =>
    simp only [tameE] at ht
    cases h with
    | empty => simp [sameLits] at ht
    | @list _ Γ1 _ e es t u h1 h2 =>
      cases e with
      | lit k v =>
        simp only [sameLits] at ht
        have hlo : litOk k v = true := by simp only [litsOf, Bool.and_eq_true] at ht; exact ht.1.2
        have htl : litsOf k es = true := by simp only [litsOf, Bool.and_eq_true] at ht; exact ht.2
        obtain ⟨p, hp⟩ := litTy_cls hlo
        cases h1
        obtain ⟨rfl, rfl⟩ := elems_lits es htl rfl h2
        simp only [trE, evalStep]
        refine Safe.bind (lits_sound n limit (.lit k v :: es) ht) fun vs s hvs => ?_
        obtain ⟨hs, hlen, hall⟩ := hvs
        refine ⟨?_, hs⟩
        cases vs with
        | nil => simp at hlen
        | cons w ws =>
          refine ⟨?_, ?_, by simp [listLitVal, listVal]⟩
          · simp only [listLitVal, listVal, (hall w (by simp)).1]
            exact Types.C25_reflexive _
          · simp only [listLitVal, listVal, (hall w (by simp)).1]
            intro d hd
            obtain ⟨x, hx, rfl⟩ := List.mem_map.1 hd
            exact (hall x hx).2
      | _ => simp [sameLits] at ht
  | range a b =>
    simp only [tameE, Bool.and_eq_true] at ht
    cases h with
    | range h1 h2 =>
      obtain ⟨rfl, -⟩ := statE S.glob ha.loc a ht.1 h1
      simp only [trE, evalStep]
      refine Safe.bind (hE h1 ht.1 ha) fun v s hv => ?_
      have ha' : Agree A L s.ctx.frames := by rw [hv.2]; exact ha
      refine Safe.bind (hE h2 ht.2 ha') fun w s' hw => ?_
      exact (Safe.lift (rangeVal_res H hv.1 hw.1)).mono fun u s'' hu => ⟨hu.1, by rw [hu.2, hw.2, hv.2]⟩
  | cond c a b =>
    simp only [tameE, Bool.and_eq_true] at ht
    cases h with
    | cond h1 h2 h3 h4 =>
      obtain ⟨rfl, -⟩ := statE S.glob ha.loc c ht.1 h1
      obtain ⟨rfl, c2⟩ := statE S.glob ha.loc a ht.2.1 h2
      obtain ⟨rfl, c3⟩ := statE S.glob ha.loc b ht.2.2 h3
      cases h4 with
      | common h4 =>
        have hcl := (common_cls c2 c3.core h4).core
        obtain ⟨hc1, hc2⟩ := Types.C25_common_type _ _ _ h4
        simp only [trE, evalStep]
        refine Safe.bind (hE.truthy (H := H) h1 ht.1 ha) fun v s hv => ?_
        have ha' : Agree A L s.ctx.frames := by rw [hv]; exact ha
        cases v
        · exact (hE h3 ht.2.2 ha').mono fun u s' hu => ⟨Fits.up hcl hc2 hu.1, by rw [hu.2, hv]⟩
        · exact (hE h2 ht.2.1 ha').mono fun u s' hu => ⟨Fits.up hcl hc1 hu.1, by rw [hu.2, hv]⟩
  | method => simp [tameE] at ht
  | member => simp [tameE] at ht
  | comp => simp [tameE] at ht
  | dict => simp [tameE] at ht
  | lam => simp [tameE] at ht
  | ifE => simp [tameE] at ht
  | matchE => simp [tameE] at ht

end Verif.Pipe
