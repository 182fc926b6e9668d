import Verif.Pipe.Values

/-!
# What the typing rules give in the fragment: types are scalars or lists of scalars, scopes change only by declarations
-/

namespace Verif.Pipe

open Verif.Types (Ty accepts commonType isNumeric)
open Verif.Parser (Name Mod Fn Param Expr Stmt Block)
open Verif.Checker (HasTy ArgsTy NamedOk StmtOk StmtsOk BlockTy ElifsOk Frame Symb Kind lookup setTop bindFree topFree frameOf
  ItemSym items Denotes DenotesOpt emptyFrame resolveName lookupBuiltin fnTy ParamsOk)

/-- the class of a type: a list of scalars, or a scalar -/
def Cls (l : Bool) (t : Ty) : Prop := if l then isPrimList t = true else isPrim t = true

theorem Cls.core {l : Bool} {t : Ty} (h : Cls l t) : core t = true := by
  cases l <;> simp [Cls] at h <;> simp [Pipe.core, h]

theorem cls_true {t : Ty} (h : Cls true t) : ∃ p, t = .list (.prim p) := by
  cases t with
  | list t => cases t with
    | prim p => exact ⟨p, rfl⟩
    | _ => simp [Cls, isPrimList, isPrim] at h
  | _ => simp [Cls, isPrimList] at h

theorem cls_false {t : Ty} (h : Cls false t) : ∃ p, t = .prim p := by
  cases t with
  | prim p => exact ⟨p, rfl⟩
  | _ => simp [Cls, isPrim] at h

/-- the scopes of a command hold variables of the right class -/
def LocOk (A : Lang) (L : List Frame) : Prop :=
  ∀ γ ∈ L, ∀ n y, γ n = some y → isText n = true ∧ Cls (A.lists n) y.ty ∧ (y.kind = .var ∨ y.kind = .param)

/-- the global scope holds the commands -/
def GlobOk (m : Mod) (g : Frame) : Prop :=
  ∀ n y, g n = some y → ∃ c, m.functions.find? (fun c => c.name == n) = some c ∧
    ∃ ps r, y = ⟨.cmd, fnTy ps r⟩ ∧ List.Forall₂ (fun p t => DenotesOpt p.ty t) c.params ps ∧ DenotesOpt c.ret r

theorem lookup_app (L : List Frame) (g : Frame) (n : Name) : lookup (L ++ [g]) n = (lookup L n).orElse fun _ => g n := by
  induction L with
  | nil => simp only [List.nil_append, lookup]; cases g n <;> rfl
  | cons γ L ih =>
    simp only [List.cons_append, lookup]
    cases γ n with
    | some y => rfl
    | none => exact ih

theorem lookup_mem {L : List Frame} {n : Name} {y : Symb} (h : lookup L n = some y) : ∃ γ ∈ L, γ n = some y := by
  induction L with
  | nil => simp [lookup] at h
  | cons γ L ih =>
    simp only [lookup] at h
    cases hg : γ n with
    | some z => rw [hg] at h; exact ⟨γ, by simp, by rw [hg]; exact h⟩
    | none =>
      rw [hg] at h
      obtain ⟨γ', hm, hy⟩ := ih h
      exact ⟨γ', by simp [hm], hy⟩

theorem glob_not_cmd {m : Mod} {g : Frame} (hg : GlobOk m g) {n : Name} (h : isCmd m n = false) : g n = none := by
  cases hn : g n with
  | none => rfl
  | some y =>
    obtain ⟨c, hc, -⟩ := hg n y hn
    have hm := List.mem_of_find?_eq_some hc
    have hp := List.find?_some hc
    simp only [isCmd, List.any_eq_false] at h
    exact absurd hp (h c hm)

/-- a variable of the fragment is one of the command's own -/
theorem var_local {A : Lang} {L : List Frame} {g : Frame} (hg : GlobOk A.mod g) {n : Name} (hv : varOk A n = true) {y : Symb}
    (h : lookup (L ++ [g]) n = some y) : lookup L n = some y := by
  simp only [varOk, Bool.and_eq_true, Bool.not_eq_true'] at hv
  rw [lookup_app] at h
  cases hl : lookup L n with
  | some z => rw [hl] at h; exact h
  | none => rw [hl] at h; simp [glob_not_cmd hg hv.2.2] at h

/-- a name that is called is a command -/
theorem cmd_global {A : Lang} {L : List Frame} {g : Frame} (hL : LocOk A L) {n : Name} {y : Symb}
    (h : lookup (L ++ [g]) n = some y) (hk : y.kind = .cmd ∨ y.kind = .func) : g n = some y := by
  rw [lookup_app] at h
  cases hl : lookup L n with
  | none => rw [hl] at h; exact h
  | some z =>
    rw [hl] at h
    cases h
    obtain ⟨γ, hm, hy⟩ := lookup_mem hl
    rcases (hL γ hm n _ hy).2.2 with h | h <;> rw [h] at hk <;> simp at hk

theorem fnTy_inj {ps ps' : List Ty} {r r' : Ty} (h : fnTy ps r = fnTy ps' r') : ps = ps' ∧ r = r' := by
  induction ps generalizing ps' with
  | nil => cases ps' with
    | nil => simp [fnTy] at h; exact ⟨rfl, h⟩
    | cons p ps' => simp [fnTy] at h
  | cons p ps ih => cases ps' with
    | nil => simp [fnTy] at h
    | cons p' ps' =>
      simp only [fnTy, List.foldr_cons, Ty.arrow.injEq] at h
      obtain ⟨rfl, h⟩ := h
      obtain ⟨rfl, rfl⟩ := ih h
      exact ⟨rfl, rfl⟩

theorem primOf_denotes {a : Option Parser.Ty} {p : Types.Prim} {t : Ty} (h : primOf a = some p) (hd : DenotesOpt a t) :
    t = .prim p := by
  cases hd with
  | none => simp [primOf] at h
  | some hd => cases hd with
    | simple hr =>
      simp only [primOf, hr] at h
      split at h
      · rename_i q hq
        cases h; cases hq; rfl
      · cases h
    | list => simp [primOf] at h
    | opt => simp [primOf] at h

theorem primOf_isSome {a : Option Parser.Ty} {t : Ty} (h : (primOf a).isSome = true) (hd : DenotesOpt a t) :
    ∃ p, primOf a = some p ∧ t = .prim p := by
  obtain ⟨p, hp⟩ := Option.isSome_iff_exists.1 h
  exact ⟨p, hp, primOf_denotes hp hd⟩

theorem litTy_cls {k : String} {v : Lexer.TVal} (h : litOk k v = true) : ∃ p, Checker.litTy k = .prim p := by
  cases v <;> simp [litOk] at h <;> subst h <;> exact ⟨_, rfl⟩

theorem elems_lits {R : Option Parser.Ty} {k : String} : ∀ (es : List Expr) {Γ Γ' : List Frame} {u w : Ty}, litsOf k es = true →
    Checker.litTy k = u → Checker.ElemsTy R Γ u es w Γ' → Γ' = Γ ∧ w = u
  | [], _, _, _, _, _, _, h => by cases h; exact ⟨rfl, rfl⟩
  | e :: es, Γ, Γ', u, w, hl, hu, h => by
    cases e with
    | lit k' v =>
      simp only [litsOf, Bool.and_eq_true, beq_iff_eq] at hl
      obtain ⟨⟨rfl, _⟩, hl⟩ := hl
      cases h with
      | cons h1 h2 h3 =>
        cases h1
        cases h2 with
        | fits _ => exact elems_lits es hl hu h3
        | widen hn _ => rw [hu, Types.C25_reflexive] at hn; cases hn
    | _ => simp [litsOf] at hl

theorem builtinRet_core {n : Name} {sig : Checker.Sig} {ts : List Ty} (h : core sig.ret = true) :
    Checker.builtinRet n sig ts = sig.ret := by
  unfold Checker.builtinRet
  split
  next he => rw [he] at h; simp [core, isPrim, isPrimList] at h
  · rfl

theorem common_cls {l : Bool} {x y t : Ty} (hx : Cls l x) (hy : core y = true) (h : commonType x y = some t) : Cls l t := by
  obtain ⟨h1, h2⟩ := Types.C25_common_type _ _ _ h
  cases l
  · obtain ⟨p, rfl⟩ := cls_false hx
    have : t = .prim p ∨ t = y ∨ t = .prim .float := by
      unfold commonType at h
      split_ifs at h <;> simp_all [Types.isPoint, Types.isVector]
    rcases this with rfl | rfl | rfl
    · simp [Cls, isPrim]
    · rcases core_cases hy with ⟨q, rfl⟩ | ⟨q, rfl⟩
      · simp [Cls, isPrim]
      · simp [accepts] at h1
    · simp [Cls, isPrim]
  · obtain ⟨p, rfl⟩ := cls_true hx
    have : t = .list (.prim p) ∨ t = y := by
      unfold commonType at h
      split_ifs at h <;> simp_all [Types.isPoint, Types.isVector, isNumeric]
    rcases this with rfl | rfl
    · simp [Cls, isPrimList, isPrim]
    · rcases core_cases hy with ⟨q, rfl⟩ | ⟨q, rfl⟩
      · simp [accepts] at h2
        simp [accepts] at h1
      · simp [Cls, isPrimList, isPrim]

theorem binTy_cls {op : String} {a b t : Ty} (h : Checker.BinTy op a b t) (ha : core a = true) (hp : op = "PLUS" → isPrim a = true) :
    Cls false t := by
  cases h with
  | geoScalar => simp [core, isPrim, isPrimList] at ha
  | geoSum => simp [core, isPrim, isPrimList] at ha
  | concat => simp [isPrim] at hp
  | _ => simp [Cls, isPrim]

section
variable {A : Lang} {g : Frame} {R : Option Parser.Ty}

mutual
/-- the type of an expression is of its class, and it declares nothing -/
theorem statE (hg : GlobOk A.mod g) {L : List Frame} (hL : LocOk A L) : ∀ (e : Expr) {t : Ty} {Γ' : List Frame},
    tameE A e = true → HasTy R (L ++ [g]) e t Γ' → Γ' = L ++ [g] ∧ Cls (listE A e) t
  | .lit k v, t, Γ', ht, h => by
    cases h with
    | lit =>
      obtain ⟨p, hp⟩ := litTy_cls (by simpa [tameE] using ht)
      exact ⟨rfl, by simp [listE, Cls, hp, isPrim]⟩
  | .ident n, t, Γ', ht, h => by
    simp only [tameE] at ht
    cases h with
    | var hl =>
      obtain ⟨γ, hm, hy⟩ := lookup_mem (var_local hg ht hl)
      exact ⟨rfl, by simpa only [listE] using (hL γ hm n _ hy).2.1⟩
    | global _ hb =>
      simp only [varOk, Checker.isGlobal, Bool.and_eq_true, Bool.not_eq_true', Bool.or_eq_false_iff] at ht
      rcases hb with hb | hb <;> simp [hb] at ht
  | .bin op l r, t, Γ', ht, h => by
    simp only [tameE, Bool.and_eq_true, Bool.or_eq_true, bne_iff_ne, ne_eq, Bool.not_eq_true'] at ht
    obtain ⟨hl, hr, -, hp⟩ := ht
    cases h with
    | bin h1 h2 h3 =>
      obtain ⟨rfl, c1⟩ := statE hg hL l hl h1
      obtain ⟨rfl, c2⟩ := statE hg hL r hr h2
      refine ⟨rfl, binTy_cls h3 c1.core fun he => ?_⟩
      rcases hp with hp | hp
      · exact absurd he hp
      · rw [hp] at c1
        simpa [Cls] using c1
  | .un op e, t, Γ', ht, h => by
    simp only [tameE] at ht
    cases h with
    | un h1 h2 =>
      obtain ⟨rfl, c1⟩ := statE hg hL e ht h1
      refine ⟨rfl, ?_⟩
      cases h2 with
      | not => simp [listE, Cls, isPrim]
      | num hn =>
        have : isPrim t = true := by
          cases t <;> simp [isNumeric] at hn
          rfl
        simpa [listE, Cls] using this
      | geo => have := c1.core; simp [core, isPrim, isPrimList] at this
  | .call f args named, t, Γ', ht, h => by
    simp only [tameE, Bool.and_eq_true, List.isEmpty_iff] at ht
    obtain ⟨rfl, ha, hc⟩ := ht
    cases f with
    | ident n =>
      simp only [callOk, Bool.and_eq_true] at hc
      obtain ⟨htx, hc⟩ := hc
      cases h with
      | @builtin _ Γ1 _ _ _ _ sig ts hb hr h1 h2 =>
        cases h2
        obtain rfl := statEs hg hL args ha h1
        refine ⟨rfl, ?_⟩
        have hB : A.builtins n = true := by
          by_contra hn
          simp only [Bool.not_eq_true] at hn
          simp [hn, Checker.isGlobal, hb] at hc
        simp only [hB, if_true, builtinOk, hb, Bool.and_eq_true] at hc
        rw [builtinRet_core hc.1.1.1]
        have hcr := hc.1.1.1
        simp only [listE, hB, hb, Bool.true_and]
        cases hq : isPrimList sig.ret
        · simp [core, hq] at hcr
          simp [Cls, hcr]
        · simp [Cls, hq]
      | constructor hb hr h1 h2 =>
        have hB : A.builtins n = false := by
          by_contra hn
          simp only [Bool.not_eq_false] at hn
          simp [hn, builtinOk, hb] at hc
        simp [hB, Checker.isGlobal, hr] at hc
      | user hb hr hl hk hy h1 =>
        have hB : A.builtins n = false := by
          by_contra hn
          simp only [Bool.not_eq_false] at hn
          simp [hn, builtinOk, hb] at hc
        obtain rfl := statEs hg hL args ha h1
        obtain ⟨c, hfind, ps, r, rfl, hps, hret⟩ := hg n _ (cmd_global hL hl hk)
        obtain ⟨rfl, rfl⟩ := fnTy_inj hy
        simp only [hB, Bool.false_eq_true, if_false, userOk, hfind, Bool.and_eq_true] at hc
        obtain ⟨p, -, rfl⟩ := primOf_isSome hc.2.1.1.1 hret
        exact ⟨rfl, by simp [listE, hB, Cls, isPrim]⟩
      | indirect hn _ => exact absurd rfl (hn n)
    | _ => simp at hc
  | .index o i, t, Γ', ht, h => by
    simp only [tameE, Bool.and_eq_true] at ht
    cases h with
    | index h1 h2 =>
      obtain ⟨rfl, c1⟩ := statE hg hL o ht.1 h1
      obtain ⟨rfl, c2⟩ := statE hg hL i ht.2 h2
      refine ⟨rfl, ?_⟩
      have := c1.core
      simpa [core, isPrim, isPrimList, listE, Cls] using this
  | .list es, t, Γ', ht, h => by
    simp only [tameE] at ht
    cases h with
    | empty => simp [sameLits] at ht
    | @list _ Γ1 _ e es t u h1 h2 =>
      cases e with
      | lit k v =>
        simp only [sameLits, litsOf, Bool.and_eq_true] at ht
        obtain ⟨p, hp⟩ := litTy_cls ht.1.2
        cases h1
        obtain ⟨rfl, rfl⟩ := elems_lits es ht.2 rfl h2
        exact ⟨rfl, by simp [listE, Cls, isPrimList, hp, isPrim]⟩
      | _ => simp [sameLits] at ht
  | .range a b, t, Γ', ht, h => by
    simp only [tameE, Bool.and_eq_true] at ht
    cases h with
    | range h1 h2 =>
      obtain ⟨rfl, -⟩ := statE hg hL a ht.1 h1
      obtain ⟨rfl, -⟩ := statE hg hL b ht.2 h2
      exact ⟨rfl, by simp [listE, Cls, isPrimList, isPrim]⟩
  | .cond c a b, t, Γ', ht, h => by
    simp only [tameE, Bool.and_eq_true] at ht
    cases h with
    | cond h1 h2 h3 h4 =>
      obtain ⟨rfl, -⟩ := statE hg hL c ht.1 h1
      obtain ⟨rfl, c2⟩ := statE hg hL a ht.2.1 h2
      obtain ⟨rfl, c3⟩ := statE hg hL b ht.2.2 h3
      cases h4 with
      | common h4 => exact ⟨rfl, by simpa only [listE] using common_cls c2 c3.core h4⟩
  | .method .., _, _, ht, _ => by simp [tameE] at ht
  | .member .., _, _, ht, _ => by simp [tameE] at ht
  | .comp .., _, _, ht, _ => by simp [tameE] at ht
  | .dict .., _, _, ht, _ => by simp [tameE] at ht
  | .lam .., _, _, ht, _ => by simp [tameE] at ht
  | .ifE .., _, _, ht, _ => by simp [tameE] at ht
  | .matchE .., _, _, ht, _ => by simp [tameE] at ht
theorem statEs (hg : GlobOk A.mod g) {L : List Frame} (hL : LocOk A L) : ∀ (es : List Expr) {ps ts : List Ty} {Γ' : List Frame},
    tameEs A es = true → ArgsTy R (L ++ [g]) ps es ts Γ' → Γ' = L ++ [g]
  | [], _, _, _, _, h => by cases h; rfl
  | e :: es, _, _, _, ht, h => by
    simp only [tameEs, Bool.and_eq_true] at ht
    cases h with
    | extra h1 h2 =>
      obtain ⟨rfl, -⟩ := statE hg hL e ht.1 h1
      exact statEs hg hL es ht.2 h2
    | cons h1 _ h2 =>
      obtain ⟨rfl, -⟩ := statE hg hL e ht.1 h1
      exact statEs hg hL es ht.2 h2
end

theorem statN (hg : GlobOk A.mod g) {L : List Frame} (hL : LocOk A L) : ∀ (es : List (Name × Expr)) {al : Option (List Name)}
    {Γ' : List Frame}, tameN A es = true → NamedOk R (L ++ [g]) al es Γ' → Γ' = L ++ [g]
  | [], _, _, _, h => by cases h; rfl
  | (k, e) :: es, _, _, ht, h => by
    simp only [tameN, Bool.and_eq_true] at ht
    cases h with
    | cons h1 _ h2 =>
      obtain ⟨rfl, -⟩ := statE hg hL e ht.1 h1
      exact statN hg hL es ht.2 h2
end

end Verif.Pipe
