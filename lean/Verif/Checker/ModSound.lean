import Verif.Checker.Sound

/-! # Modules: accepted exactly when well typed -/

namespace Verif.Checker

open Verif.Types (Ty accepts commonType)
open Verif.Parser (Name Expr Clause Stmt Block Pat Mod Fn Param NBlock NFn NDecl)

theorem tr_resolveParams (Γ : List Frame) : ∀ ps : List Param, Tr Γ (resolveParams ps)
    (fun ts Γ' => List.Forall₂ (fun p t => DenotesOpt p.ty t) ps ts ∧ Γ' = Γ)
  | [] => by
    unfold resolveParams
    refine (Tr.pure _).iff fun t Γ' => ?_
    constructor
    · rintro ⟨rfl, rfl⟩; exact ⟨.nil, rfl⟩
    · rintro ⟨h, rfl⟩; cases h; exact ⟨rfl, rfl⟩
  | p :: ps => by
    unfold resolveParams
    refine (Tr.val (fun Γ => tr_resolveOpt Γ p.ty) (fun _ => Mono.bind (Mono.resolveParams ps) fun _ => Mono.pure _)
      (fun t _ => Tr.val (fun Γ => tr_resolveParams Γ ps) (fun _ => Mono.pure _) (fun ts _ => Tr.pure (t :: ts)))).iff ?_
    intro u Γ'
    constructor
    · rintro ⟨t, h1, ts, h2, rfl, rfl⟩; exact ⟨.cons h1 h2, rfl⟩
    · rintro ⟨h, rfl⟩
      cases h with
      | cons h1 h2 => exact ⟨_, h1, _, h2, rfl, rfl⟩

/-- registering a declaration, whatever its kind -/
def regItem (i : Item) (code : String) : M Unit := do
  let r ← resolveOpt i.ret
  let ps ← resolveParams i.params
  defineOr i.name i.kind (fnTy ps r) code

theorem Mono.regItem (i : Item) (c : String) : Mono (Checker.regItem i c) :=
  Mono.bind (Mono.resolveOpt _) fun _ => Mono.bind (Mono.resolveParams _) fun _ => Mono.defineOr _ _ _ _

/-- the global scope after a list of declarations -/
inductive RegOk : Frame → List Item → Frame → Prop
  | nil {f : Frame} : RegOk f [] f
  | cons {f f' : Frame} {i : Item} {is : List Item} {n : Name} {y : Symb} : ItemSym i (n, y) → f n = none →
      RegOk (fun m => if m = n then some y else f m) is f' → RegOk f (i :: is) f'

theorem RegOk.append {f f' f'' : Frame} {is js : List Item} (h : RegOk f is f') (h' : RegOk f' js f'') :
    RegOk f (is ++ js) f'' := by
  induction h with
  | nil => exact h'
  | cons h1 h2 _ ih => exact .cons h1 h2 (ih h')

theorem RegOk.split {f f'' : Frame} {is js : List Item} (h : RegOk f (is ++ js) f'') :
    ∃ f', RegOk f is f' ∧ RegOk f' js f'' := by
  induction is generalizing f with
  | nil => exact ⟨f, .nil, h⟩
  | cons i is ih =>
    cases h with
    | cons h1 h2 h3 =>
      obtain ⟨f', g1, g2⟩ := ih h3
      exact ⟨f', .cons h1 h2 g1, g2⟩

theorem tr_regItem (i : Item) (c : String) (f : Frame) :
    Tr [f] (regItem i c) (fun _ Γ' => ∃ f', RegOk f [i] f' ∧ Γ' = [f']) := by
  unfold regItem
  refine (Tr.val (fun Γ => tr_resolveOpt Γ i.ret) (fun _ => Mono.bind (Mono.resolveParams _) fun _ => Mono.defineOr _ _ _ _)
    (fun r _ => Tr.val (fun Γ => tr_resolveParams Γ i.params) (fun _ => Mono.defineOr _ _ _ _) (fun ps _ =>
      Tr.defineOr (by simp) i.name i.kind (fnTy ps r) c))).iff ?_
  intro u Γ'
  constructor
  · rintro ⟨r, h1, ps, h2, ⟨f0, fs, hf, hn⟩, rfl⟩
    injection hf with hf hs
    subst hf hs
    exact ⟨_, .cons ⟨ps, r, rfl, h2, h1⟩ hn .nil, rfl⟩
  · rintro ⟨f', h, rfl⟩
    cases h with
    | cons h1 hn h2 =>
      cases h2
      obtain ⟨ps, r, he, h2, h1⟩ := h1
      injection he with he1 he2
      subst he1 he2
      exact ⟨r, h1, ps, h2, ⟨f, [], rfl, hn⟩, rfl⟩

/-- the declarations of a list of things, registered one by one -/
theorem tr_each {α : Type} {g : α → M Unit} {it : α → List Item} (hm : ∀ a, Mono (g a))
    (hg : ∀ a f, Tr [f] (g a) (fun _ Γ' => ∃ f', RegOk f (it a) f' ∧ Γ' = [f'])) :
    ∀ (l : List α) (f : Frame), Tr [f] (each g l) (fun _ Γ' => ∃ f', RegOk f (l.flatMap it) f' ∧ Γ' = [f'])
  | [], f => by
    unfold each
    refine (Tr.pure ()).iff fun u Γ' => ?_
    constructor
    · rintro ⟨-, rfl⟩; exact ⟨f, .nil, rfl⟩
    · rintro ⟨f', h, rfl⟩; cases h; exact ⟨rfl, rfl⟩
  | a :: l, f => by
    unfold each
    refine (Tr.bind (Q := fun _ Γ1 _ Γ' => ∃ f1 f', Γ1 = [f1] ∧ RegOk f1 (l.flatMap it) f' ∧ Γ' = [f']) (hg a f)
      (fun _ => Mono.each hm l) (fun _ Γ1 h1 => ?_)).iff ?_
    · obtain ⟨f1, h1, rfl⟩ := h1
      refine (tr_each hm hg l f1).iff fun u Γ' => ?_
      constructor
      · rintro ⟨f', h, rfl⟩; exact ⟨f1, f', rfl, h, rfl⟩
      · rintro ⟨f2, f', he, h, rfl⟩
        injection he with he
        subst he
        exact ⟨f', h, rfl⟩
    · intro u Γ'
      rw [List.flatMap_cons]
      constructor
      · rintro ⟨-, _, ⟨f1, h1, rfl⟩, f2, f', he, h2, rfl⟩
        injection he with he
        subst he
        exact ⟨f', h1.append h2, rfl⟩
      · rintro ⟨f', h, rfl⟩
        obtain ⟨f1, h1, h2⟩ := h.split
        exact ⟨(), _, ⟨f1, h1, rfl⟩, f1, f', rfl, h2, rfl⟩

/-- the declaration of an exported function -/
def declItem (d : NDecl) : Item := ⟨d.name, .func, d.params, some d.ret⟩
/-- the declaration of a native function -/
def nativeItem (f : NFn) : Item := ⟨f.name, .func, f.params, some f.ret⟩
/-- the declaration of a command -/
def cmdItem (c : Fn) : Item := ⟨c.name, .cmd, c.params, c.ret⟩

theorem regDecls_each : ∀ ds, regDecls ds = each (fun d => regItem (declItem d) "E205") ds
  | [] => rfl
  | d :: ds => by
    unfold regDecls each
    rw [regDecls_each ds]
    rfl

theorem tr_regBlock (b : NBlock) (f : Frame) :
    Tr [f] (regBlock b) (fun _ Γ' => ∃ f', RegOk f (b.decls.map declItem) f' ∧ Γ' = [f']) := by
  unfold regBlock
  rw [regDecls_each]
  have hd := tr_each (it := fun d => [declItem d]) (fun d => Mono.regItem (declItem d) "E205")
    (fun d f => tr_regItem (declItem d) "E205" f) b.decls f
  refine (Tr.val (P := fun _ => True) (fun Γ => Tr.setPy.iff fun _ _ => by simp)
    (fun _ => Mono.bind (Mono.each (fun d => Mono.regItem (declItem d) "E205") _) fun _ => Mono.warn _ _)
    (fun _ _ => Tr.bind hd (fun _ => Mono.warn _ _) (fun _ _ _ => Tr.warn _ _))).iff ?_
  intro u Γ'
  rw [show b.decls.flatMap (fun d => [declItem d]) = b.decls.map declItem by simp [List.flatMap, List.flatten]; induction b.decls <;> simp_all]
  constructor
  · rintro ⟨-, -, -, _, h, rfl⟩; exact h
  · intro h; exact ⟨(), trivial, (), _, h, rfl⟩

theorem tr_regNative (n : NFn) (f : Frame) :
    Tr [f] (regNative n) (fun _ Γ' => ∃ f', RegOk f [nativeItem n] f' ∧ Γ' = [f']) := by
  have h := tr_regItem (nativeItem n) "E205" f
  have heq : regNative n = (do setPy; regItem (nativeItem n) "E205"; warn "W213") := by
    funext s
    simp only [regNative, regItem, nativeItem, resolveOpt, Bind.bind, Checker.bind, setPy]
    cases resolve n.ret { s with py := true } with
    | error e => rfl
    | ok x =>
      dsimp only
      cases resolveParams n.params x.2 <;> rfl
  rw [heq]
  refine (Tr.val (P := fun _ => True) (fun Γ => Tr.setPy.iff fun _ _ => by simp)
    (fun _ => Mono.bind (Mono.regItem _ _) fun _ => Mono.warn _ _)
    (fun _ _ => Tr.bind h (fun _ => Mono.warn _ _) (fun _ _ _ => Tr.warn _ _))).iff ?_
  intro u Γ'
  constructor
  · rintro ⟨-, -, -, _, h, rfl⟩; exact h
  · intro h; exact ⟨(), trivial, (), _, h, rfl⟩

theorem tr_regCommand (c : Fn) (f : Frame) :
    Tr [f] (regCommand c) (fun _ Γ' => ∃ f', RegOk f [cmdItem c] f' ∧ Γ' = [f']) :=
  tr_regItem (cmdItem c) "E201" f

/-! ### commands -/

theorem tr_params {K : Cfg} (hK : 1 ≤ K.max) : ∀ (ps : List Param) {Γ : List Frame},
    (∀ p ∈ ps, ∀ e, p.dflt = some e → wfE e) → Good Γ →
    Tr Γ (each (checkParam K) ps) (fun _ Γ' => ParamsOk K.ret Γ ps Γ' ∧ Same Γ Γ')
  | [], Γ, w, g => by
    unfold each
    refine (Tr.pure ()).iff fun u Γ' => ?_
    constructor
    · rintro ⟨-, rfl⟩; exact ⟨.nil, .refl g⟩
    · rintro ⟨h, -⟩; cases h; exact ⟨rfl, rfl⟩
  | p :: ps, Γ, w, g => by
    rw [List.forall_mem_cons] at w
    have hcons : ∀ {Γ1 Γ' : List Frame}, Same Γ Γ1 → Same Γ1 Γ' → Same Γ Γ' := fun h h' => h.trans h'
    have hone : Tr Γ (checkParam K p) (fun _ Γ1 => (∃ t, DenotesOpt p.ty t ∧ topFree Γ p.name ∧
        ((p.dflt = none ∧ Γ1 = setTop Γ p.name ⟨.param, t⟩) ∨ ∃ e u, p.dflt = some e ∧
          HasTy K.ret (setTop Γ p.name ⟨.param, t⟩) e u Γ1 ∧ accepts t u = true)) ∧ Same Γ Γ1) := by
      unfold checkParam
      refine (Tr.val (Q := fun t _ Γ1 => (topFree Γ p.name ∧
        ((p.dflt = none ∧ Γ1 = setTop Γ p.name ⟨.param, t⟩) ∨ ∃ e u, p.dflt = some e ∧
          HasTy K.ret (setTop Γ p.name ⟨.param, t⟩) e u Γ1 ∧ accepts t u = true)) ∧ Same Γ Γ1)
          (fun Γ => tr_resolveOpt Γ p.ty) (fun _ => by cases p.dflt <;> mono_all) (fun t ht => ?_)).iff ?_
      · have ct := clean_denotesOpt ht
        have g1 := g.setTop p.name (symOk_param ct)
        have s1 : Same Γ (setTop Γ p.name ⟨.param, t⟩) := ⟨g1, setTop_tail _ _ _⟩
        refine (Tr.bind (Q := fun _ Γ0 _ Γ1 => ((p.dflt = none ∧ Γ1 = Γ0) ∨ ∃ e u, p.dflt = some e ∧
          HasTy K.ret Γ0 e u Γ1 ∧ accepts t u = true) ∧ Same Γ Γ1)
          (Tr.defineOr g.1 p.name .param t "E202") (fun _ => by cases p.dflt <;> mono_all) (fun _ Γ0 h0 => ?_)).iff ?_
        · obtain ⟨h0, rfl⟩ := h0
          cases hd : p.dflt with
          | none =>
            refine (Tr.pure ()).iff fun u Γ1 => ?_
            constructor
            · rintro ⟨-, rfl⟩; exact ⟨.inl ⟨rfl, rfl⟩, s1⟩
            · rintro ⟨⟨-, rfl⟩ | ⟨e, u, he, -⟩, -⟩
              · exact ⟨rfl, rfl⟩
              · simp at he
          | some e =>
            have we := w.1 e hd
            refine (Tr.bind (trE hK e we g1) (fun _ => by mono_all) (fun u Γ1 h1 => Tr.errIf _ _ _)).iff fun u Γ1 => ?_
            constructor
            · rintro ⟨u, Γ2, h1, ha, rfl⟩
              refine ⟨.inr ⟨e, u, rfl, h1, ?_⟩, s1.trans (pres e h1 g1).2⟩
              by_cases hu : t = .unknown
              · subst hu; simp [accepts]
              · simpa [hu] using ha
            · rintro ⟨⟨h, -⟩ | ⟨e', u, he, h1, ha⟩, -⟩
              · simp at h
              · injection he with he
                subst he
                exact ⟨u, _, h1, by simp [ha], rfl⟩
        · intro u Γ1
          constructor
          · rintro ⟨-, Γ0, ⟨h0, rfl⟩, h1, hs⟩
            exact ⟨⟨h0, h1⟩, hs⟩
          · rintro ⟨⟨h0, h1⟩, hs⟩
            exact ⟨(), _, ⟨h0, rfl⟩, h1, hs⟩
      · intro u Γ1
        constructor
        · rintro ⟨t, ht, ⟨h0, h1⟩, hs⟩; exact ⟨⟨t, ht, h0, h1⟩, hs⟩
        · rintro ⟨⟨t, ht, h0, h1⟩, hs⟩; exact ⟨t, ht, ⟨h0, h1⟩, hs⟩
    unfold each
    refine (Tr.bind hone (fun _ => Mono.each (Mono.checkParam K) ps) (fun _ Γ1 h1 => tr_params hK ps w.2 h1.2.1)).iff ?_
    intro u Γ'
    constructor
    · rintro ⟨-, Γ1, ⟨⟨t, ht, h0, h1⟩, hs⟩, h2, hs2⟩
      refine ⟨?_, hs.trans hs2⟩
      rcases h1 with ⟨hd, rfl⟩ | ⟨e, u, hd, h1, ha⟩
      · exact .plain ht h0 hd h2
      · exact .dflt ht h0 hd h1 ha h2
    · rintro ⟨h, hs⟩
      cases h with
      | plain ht h0 hd h2 =>
        have g1 := g.setTop p.name (symOk_param (clean_denotesOpt ht))
        exact ⟨(), _, ⟨⟨_, ht, h0, .inl ⟨hd, rfl⟩⟩, g1, setTop_tail _ _ _⟩, h2, hs.1, hs.2.trans (setTop_tail _ _ _).symm⟩
      | dflt ht h0 hd h1 ha h2 =>
        have g1 := g.setTop p.name (symOk_param (clean_denotesOpt ht))
        have s1 := (pres _ h1 g1).2
        have s0 : Same Γ _ := ⟨s1.1, s1.2.trans (setTop_tail _ _ _)⟩
        exact ⟨(), _, ⟨⟨_, ht, h0, .inr ⟨_, _, hd, h1, ha⟩⟩, s0⟩, h2, hs.1, hs.2.trans s0.2.symm⟩

theorem presParams {R : Option Parser.Ty} : ∀ (ps : List Param) {Γ Γ' : List Frame}, ParamsOk R Γ ps Γ' → Good Γ → Same Γ Γ'
  | [], Γ, Γ', h, g => by
    cases h with
    | nil => exact .refl g
  | p :: ps, Γ, Γ', h, g => by
    cases h with
    | plain ht h0 hd h2 =>
      have s0 : Same Γ _ := ⟨g.setTop p.name (symOk_param (clean_denotesOpt ht)), setTop_tail _ _ _⟩
      exact s0.trans (presParams ps h2 s0.1)
    | dflt ht h0 hd h1 ha h2 =>
      have s0 : Same Γ _ := ⟨g.setTop p.name (symOk_param (clean_denotesOpt ht)), setTop_tail _ _ _⟩
      have s1 := s0.trans (pres _ h1 s0.1).2
      exact s1.trans (presParams ps h2 s1.1)

theorem tr_meta {Γ : List Frame} : ∀ ks : List (List Name), Tr Γ (each checkMetaKey ks) (fun _ Γ' => Γ' = Γ)
  | [] => (Tr.pure ()).iff fun _ _ => by simp
  | k :: ks => by
    have h1 : ∀ Γ, Tr Γ (checkMetaKey k) (fun _ Γ' => True ∧ Γ' = Γ) := by
      intro Γ
      have hp : Tr Γ (pure () : M Unit) (fun _ Γ' => True ∧ Γ' = Γ) := (Tr.pure ()).iff fun _ _ => by simp
      have hw : ∀ c l, Tr Γ (warn c l) (fun _ Γ' => True ∧ Γ' = Γ) := fun c l => (Tr.warn c l).iff fun _ _ => by simp
      unfold checkMetaKey
      repeat' split
      all_goals first | exact hp | exact hw _ _
    unfold each
    refine (Tr.val h1 (fun _ => Mono.each Mono.checkMetaKey ks) (fun _ _ => tr_meta ks)).iff fun u Γ' => ?_
    constructor
    · rintro ⟨-, -, rfl⟩; rfl
    · rintro rfl; exact ⟨(), trivial, rfl⟩

/-- what is done inside the scope of a command -/
def cmdInner (max : Nat) (m : Mod) (c : Fn) : M Unit := do
  each (checkParam (cfgOf max m c)) c.params
  let _ ← checkB (cfgOf max m c) c.body
  each checkMetaKey (c.md.map (·.1))

theorem tr_command {max : Nat} (hm : 1 ≤ max) {m : Mod} {c : Fn} (w : wfFn c) {f : Frame} (hf : FrameOk f) :
    Tr [f] (checkCommand max m c) (fun _ Γ' => CmdOk f c ∧ Γ' = [f]) := by
  have g : Good [f] := ⟨by simp, by simpa using hf⟩
  have hK : 1 ≤ (cfgOf max m c).max := hm
  have hin : Tr [emptyFrame, f] (cmdInner max m c) (fun _ Γ' => (∃ Γ x, ParamsOk c.ret [emptyFrame, f] c.params Γ ∧
        BlockTy c.ret Γ c.body x Γ') ∧ Same [emptyFrame, f] Γ') := by
    unfold cmdInner
    refine (Tr.bind (tr_params hK c.params w.2 g.push) (fun _ => Mono.bind (Mono.checkB _ _) fun _ =>
      Mono.each Mono.checkMetaKey _) (fun _ Γ1 h1 => Tr.bind (trB hK c.body w.1 h1.2.1) (fun _ =>
        Mono.each Mono.checkMetaKey _) (fun _ _ _ => tr_meta _))).iff fun u Γ' => ?_
    constructor
    · rintro ⟨-, Γ1, ⟨h1, s1⟩, x, Γ2, h2, rfl⟩
      exact ⟨⟨Γ1, x, h1, h2⟩, s1.trans (presB _ h2 s1.1).2⟩
    · rintro ⟨⟨Γ1, x, h1, h2⟩, s1⟩
      have s2 : Same [emptyFrame, f] Γ1 := presParams c.params h1 g.push
      exact ⟨(), Γ1, ⟨h1, s2⟩, x, Γ', h2, rfl⟩
  have hs := tr_scopedU g (by
    exact Mono.bind (Mono.each (Mono.checkParam _) _) fun _ => Mono.bind (Mono.checkB _ _) fun _ =>
      Mono.each Mono.checkMetaKey _) hin (fun _ Γ' h => h.2)
  have heq : (do push; let _ ← cmdInner max m c; pop : M Unit) = checkCommand max m c := by
    funext s
    simp only [checkCommand, cmdInner, Bind.bind, Checker.bind, push]
    cases each (checkParam (cfgOf max m c)) c.params { s with scopes := emptyFrame :: s.scopes } with
    | error e => rfl
    | ok x =>
      dsimp only
      cases checkB (cfgOf max m c) c.body x.2 <;> rfl
  rw [heq] at hs
  refine hs.iff fun u Γ' => ?_
  constructor
  · rintro ⟨⟨_, Γ', ⟨Γ, x, h1, h2⟩, -⟩, rfl⟩
    exact ⟨⟨Γ, Γ', x, h1, h2⟩, rfl⟩
  · rintro ⟨⟨Γ, Γ', x, h1, h2⟩, rfl⟩
    have s1 := presParams c.params h1 g.push
    exact ⟨⟨(), Γ', ⟨Γ, x, h1, h2⟩, s1.trans (presB _ h2 s1.1).2⟩, rfl⟩

theorem tr_commands {max : Nat} (hm : 1 ≤ max) {m : Mod} {f : Frame} (hf : FrameOk f) : ∀ (cs : List Fn),
    (∀ c ∈ cs, wfFn c) → Tr [f] (each (checkCommand max m) cs) (fun _ Γ' => (∀ c ∈ cs, CmdOk f c) ∧ Γ' = [f])
  | [], _ => (Tr.pure ()).iff fun _ _ => by simp
  | c :: cs, w => by
    rw [List.forall_mem_cons] at w
    unfold each
    refine (Tr.bind (Q := fun _ _ _ Γ' => (∀ c ∈ cs, CmdOk f c) ∧ Γ' = [f]) (tr_command hm w.1 hf)
      (fun _ => Mono.each (Mono.checkCommand max m) cs) (fun _ Γ1 h1 => ?_)).iff fun u Γ' => ?_
    · obtain ⟨-, rfl⟩ := h1
      exact tr_commands hm hf cs w.2
    · rw [List.forall_mem_cons]
      constructor
      · rintro ⟨-, _, ⟨h1, rfl⟩, h2, rfl⟩; exact ⟨⟨h1, h2⟩, rfl⟩
      · rintro ⟨⟨h1, h2⟩, rfl⟩; exact ⟨(), _, ⟨h1, rfl⟩, h2, rfl⟩

theorem tr_cycles {Γ : List Frame} : ∀ l : List (List Name), Tr Γ (each cycleWarning l) (fun _ Γ' => Γ' = Γ)
  | [] => (Tr.pure ()).iff fun _ _ => by simp
  | k :: ks => by
    have h1 : ∀ Γ, Tr Γ (cycleWarning k) (fun _ Γ' => True ∧ Γ' = Γ) := by
      intro Γ
      have hw : ∀ c l, Tr Γ (warn c l) (fun _ Γ' => True ∧ Γ' = Γ) := fun c l => (Tr.warn c l).iff fun _ _ => by simp
      unfold cycleWarning
      repeat' split
      all_goals exact hw _ _
    unfold each
    refine (Tr.val h1 (fun _ => Mono.each Mono.cycleWarning ks) (fun _ _ => tr_cycles ks)).iff fun u Γ' => ?_
    constructor
    · rintro ⟨-, -, rfl⟩; rfl
    · rintro rfl; exact ⟨(), trivial, rfl⟩

theorem tr_recursion {Γ : List Frame} (o : SetOrder) (m : Mod) : Tr Γ (checkRecursion o m) (fun _ Γ' => Γ' = Γ) := by
  intro s h0 hs a Γ'
  exact tr_cycles _ s h0 hs a Γ'

/-- the declarations of a module, by their kinds -/
theorem items_eq (m : Mod) : items m = m.blocks.flatMap (fun b => b.decls.map declItem) ++
    m.natives.flatMap (fun f => [nativeItem f]) ++ m.functions.flatMap (fun c => [cmdItem c]) := by
  have h : ∀ {α : Type} (g : α → Item) (l : List α), l.flatMap (fun a => [g a]) = l.map g := by
    intro α g l
    induction l with
    | nil => rfl
    | cons a l ih => rw [List.flatMap_cons, ih]; rfl
  rw [h, h]
  rfl

theorem regOk_frame {f f' : Frame} {is : List Item} : RegOk f is f' ↔ ∃ G, List.Forall₂ ItemSym is G ∧ (G.map (·.1)).Nodup ∧
    (∀ e ∈ G, f e.1 = none) ∧ f' = fun n => (frameOf G n).or (f n) := by
  constructor
  · intro h
    induction h with
    | nil => exact ⟨[], .nil, by simp, by simp, by funext n; simp [frameOf, Dict.dget]⟩
    | @cons f f' i is n y h1 h2 _ ih =>
      obtain ⟨G, h3, h4, h5, rfl⟩ := ih
      have hn : n ∉ G.map (·.1) := by
        intro hn
        obtain ⟨e, he, rfl⟩ := List.mem_map.1 hn
        simpa using h5 e he
      refine ⟨(n, y) :: G, .cons h1 h3, by simpa using ⟨by simpa using hn, h4⟩, ?_, ?_⟩
      · rw [List.forall_mem_cons]
        refine ⟨h2, fun e he => ?_⟩
        have := h5 e he
        dsimp only at this
        split at this
        · simp at this
        · exact this
      · funext k
        simp only [frameOf, Dict.dget]
        by_cases hk : n = k
        · subst hk
          have : Dict.dget G n = none := by
            cases hg : Dict.dget G n with
            | none => rfl
            | some v => exact absurd (List.mem_map.2 ⟨(n, v), Dict.mem_of_dget hg, rfl⟩) hn
          simp [this]
        · rw [if_neg hk, if_neg (Ne.symm hk)]
  · rintro ⟨G, h1, h2, h3, rfl⟩
    induction h1 generalizing f with
    | nil =>
      have : (fun n => (frameOf [] n).or (f n)) = f := by funext n; simp [frameOf, Dict.dget]
      rw [this]
      exact .nil
    | @cons i e is G hi _ ih =>
      obtain ⟨n, y⟩ := e
      rw [List.forall_mem_cons] at h3
      simp only [List.map_cons, List.nodup_cons] at h2
      have hrec := ih (f := fun m => if m = n then some y else f m) h2.2 (by
        intro e he
        rw [if_neg]
        · exact h3.2 e he
        · rintro rfl
          exact h2.1 (List.mem_map.2 ⟨e, he, rfl⟩))
      have heq : (fun k => (frameOf ((n, y) :: G) k).or (f k)) =
          fun k => (frameOf G k).or (if k = n then some y else f k) := by
        funext k
        simp only [frameOf, Dict.dget]
        by_cases hk : n = k
        · subst hk
          have : Dict.dget G n = none := by
            cases hg : Dict.dget G n with
            | none => rfl
            | some v => exact absurd (List.mem_map.2 ⟨(n, v), Dict.mem_of_dget hg, rfl⟩) h2.1
          simp [this]
        · rw [if_neg hk, if_neg (Ne.symm hk)]
      rw [heq]
      exact .cons hi h3.1 hrec

theorem frameOk_of {is : List Item} {G : List (Name × Symb)} (h : List.Forall₂ ItemSym is G) : FrameOk (frameOf G) := by
  intro n y hy
  have hmem : (n, y) ∈ G := Dict.mem_of_dget hy
  clear hy
  induction h with
  | nil => simp at hmem
  | @cons i e is G hi _ ih =>
    rcases List.mem_cons.1 hmem with he | he
    · obtain ⟨ps, r, he', hp, hr⟩ := hi
      rw [← he] at he'
      injection he' with h1 h2
      subst h2
      refine ⟨(clean_fnTy _ _).2 ⟨?_, clean_denotesOpt hr⟩, fun _ => ⟨ps, r, rfl⟩⟩
      intro p hp'
      clear he ih hmem
      generalize i.params = qs at hp
      induction hp with
      | nil => simp at hp'
      | cons h1 _ ih2 =>
        rcases List.mem_cons.1 hp' with rfl | hp'
        · exact clean_denotesOpt h1
        · exact ih2 hp'
    · exact ih he

/-- registration, then the commands, in one statement -/
theorem tr_module {max : Nat} (hm : 1 ≤ max) (o : SetOrder) {m : Mod} (w : wfMod m) :
    Tr [emptyFrame] (checkModule o max m) (fun _ Γ' => ∃ f, RegOk emptyFrame (items m) f ∧ (∀ c ∈ m.functions, CmdOk f c) ∧
      Γ' = [f]) := by
  have mreg := Mono.each (Mono.checkCommand max m) m.functions
  have hB := tr_each (it := fun b : NBlock => b.decls.map declItem) Mono.regBlock tr_regBlock m.blocks emptyFrame
  have hN := fun f => tr_each (it := fun n : NFn => [nativeItem n]) Mono.regNative tr_regNative m.natives f
  have hC := fun f => tr_each (it := fun c : Fn => [cmdItem c]) Mono.regCommand tr_regCommand m.functions f
  -- the last two steps
  have hend : ∀ f, RegOk emptyFrame (items m) f → Tr [f] (do each (checkCommand max m) m.functions; checkRecursion o m)
      (fun _ Γ' => (∀ c ∈ m.functions, CmdOk f c) ∧ Γ' = [f]) := by
    intro f hf
    have hok : FrameOk f := by
      obtain ⟨G, h1, -, -, rfl⟩ := regOk_frame.1 hf
      have : (fun n => (frameOf G n).or (emptyFrame n)) = frameOf G := by funext n; simp [emptyFrame]
      rw [this]
      exact frameOk_of h1
    refine (Tr.bind (tr_commands hm hok m.functions w) (fun _ => Mono.checkRecursion o m)
      (fun _ _ _ => tr_recursion o m)).iff fun u Γ' => ?_
    constructor
    · rintro ⟨-, _, ⟨h, rfl⟩, rfl⟩; exact ⟨h, rfl⟩
    · rintro ⟨h, rfl⟩; exact ⟨(), _, ⟨h, rfl⟩, rfl⟩
  have mend : Mono (do each (checkCommand max m) m.functions; checkRecursion o m) :=
    Mono.bind mreg fun _ => Mono.checkRecursion o m
  unfold checkModule
  refine (Tr.bind (Q := fun _ Γ1 _ Γ' => ∃ f1 f, Γ1 = [f1] ∧ RegOk f1 (m.natives.flatMap (fun f => [nativeItem f]) ++
      m.functions.flatMap (fun c => [cmdItem c])) f ∧ (∀ c ∈ m.functions, CmdOk f c) ∧ Γ' = [f]) hB
    (fun _ => Mono.bind (Mono.each Mono.regNative _) fun _ => Mono.bind (Mono.each Mono.regCommand _) fun _ => mend)
    (fun _ Γ1 h1 => ?_)).iff fun u Γ' => ?_
  · obtain ⟨f1, h1, rfl⟩ := h1
    refine (Tr.bind (Q := fun _ Γ2 _ Γ' => ∃ f2 f, Γ2 = [f2] ∧ RegOk f2 (m.functions.flatMap (fun c => [cmdItem c])) f ∧
      (∀ c ∈ m.functions, CmdOk f c) ∧ Γ' = [f]) (hN f1) (fun _ => Mono.bind (Mono.each Mono.regCommand _) fun _ => mend)
      (fun _ Γ2 h2 => ?_)).iff fun u Γ' => ?_
    · obtain ⟨f2, h2, rfl⟩ := h2
      refine (Tr.bind (Q := fun _ Γ3 _ Γ' => ∃ f, Γ3 = [f] ∧ (∀ c ∈ m.functions, CmdOk f c) ∧ Γ' = [f]) (hC f2)
        (fun _ => mend) (fun _ Γ3 h3 => ?_)).iff fun u Γ' => ?_
      · obtain ⟨f3, h3, rfl⟩ := h3
        refine (hend f3 (by rw [items_eq]; exact (h1.append h2).append h3)).iff fun u Γ' => ?_
        constructor
        · intro h; exact ⟨f3, rfl, h⟩
        · rintro ⟨f, he, h⟩
          injection he with he
          subst he
          exact h
      · constructor
        · rintro ⟨-, _, ⟨f3, h3, rfl⟩, f, he, h⟩
          injection he with he
          subst he
          exact ⟨f2, f3, rfl, h3, h⟩
        · rintro ⟨f2', f3, he, h3, h⟩
          injection he with he
          subst he
          exact ⟨(), _, ⟨f3, h3, rfl⟩, f3, rfl, h⟩
    · constructor
      · rintro ⟨-, _, ⟨f2, h2, rfl⟩, f2', f, he, h3, h⟩
        injection he with he
        subst he
        exact ⟨f1, f, rfl, h2.append h3, h⟩
      · rintro ⟨f1', f, he, h23, h⟩
        injection he with he
        subst he
        obtain ⟨f2, h2, h3⟩ := h23.split
        exact ⟨(), _, ⟨f2, h2, rfl⟩, f2, f, rfl, h3, h⟩
  · rw [items_eq, List.append_assoc]
    constructor
    · rintro ⟨-, _, ⟨f1, h1, rfl⟩, f1', f, he, h23, h⟩
      injection he with he
      subst he
      exact ⟨f, h1.append h23, h⟩
    · rintro ⟨f, hf, h⟩
      obtain ⟨f1, h1, h23⟩ := hf.split
      exact ⟨(), _, ⟨f1, h1, rfl⟩, f1, f, rfl, h23, h⟩

/-- **C152**: the checker reports no error exactly for well-typed modules -/
theorem C152_accepts_iff_well_typed (o : SetOrder) (max : Nat) (hm : 1 ≤ max) (m : Mod) (w : wfMod m) :
    (∃ r, check o max m = .ok r ∧ r.hasErrors = false) ↔ ModOk m := by
  have h := tr_module hm o w st0 rfl rfl
  have key : (∃ r, check o max m = .ok r ∧ r.hasErrors = false) ↔
      ∃ Γ', ∃ s', checkModule o max m st0 = .ok ((), s') ∧ errCount s' = 0 ∧ s'.scopes = Γ' := by
    unfold check
    cases hc : checkModule o max m st0 with
    | error e => simp
    | ok x =>
      obtain ⟨u, s'⟩ := x
      have he : errCount s' = 0 ↔ (s'.diags.any (·.err)) = false := by
        simp [errCount, List.filter_eq_nil_iff]
      simp [he]
  rw [key]
  have : (∃ Γ', ∃ s', checkModule o max m st0 = .ok ((), s') ∧ errCount s' = 0 ∧ s'.scopes = Γ') ↔
      ∃ Γ' f, RegOk emptyFrame (items m) f ∧ (∀ c ∈ m.functions, CmdOk f c) ∧ Γ' = [f] :=
    exists_congr fun Γ' => h () Γ'
  rw [this]
  unfold ModOk
  constructor
  · rintro ⟨_, f, hf, hc, rfl⟩
    obtain ⟨G, h1, h2, -, rfl⟩ := regOk_frame.1 hf
    have he : (fun n => (frameOf G n).or (emptyFrame n)) = frameOf G := by funext n; simp [emptyFrame]
    rw [he] at hc
    exact ⟨G, h1, h2, hc⟩
  · rintro ⟨G, h1, h2, hc⟩
    refine ⟨[frameOf G], frameOf G, regOk_frame.2 ⟨G, h1, h2, fun e _ => rfl, ?_⟩, hc, rfl⟩
    funext n
    simp [emptyFrame]

end Verif.Checker
