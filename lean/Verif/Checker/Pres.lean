import Verif.Checker.Mono
import Verif.Types.Props

/-! # Well-typed expressions have proper types and only touch the innermost scope -/

namespace Verif.Checker

open Verif.Types (Ty accepts commonType isNumeric isPoint isVector)
open Verif.Parser (Name Expr Clause Stmt Block Pat Mod Fn Param NBlock NFn NDecl)

/-- a type without the error type in it -/
def clean : Ty → Bool
  | .list t => clean t
  | .opt t => clean t
  | .arrow p r => clean p && clean r
  | .result r => clean r
  | .error => false
  | _ => true

theorem clean_ne {t : Ty} (h : clean t = true) : t ≠ .error := by rintro rfl; simp [clean] at h

theorem clean_fnTy : ∀ (ps : List Ty) (r : Ty), clean (fnTy ps r) = true ↔ (∀ p ∈ ps, clean p = true) ∧ clean r = true
  | [], r => by simp [fnTy, clean]
  | p :: ps, r => by
    have := clean_fnTy ps r
    simp only [fnTy, List.foldr_cons, clean, Bool.and_eq_true, List.forall_mem_cons] at this ⊢
    rw [this, and_assoc]

theorem fnParts_fnTy : ∀ (ps : List Ty) (r : Ty), fnParts (fnTy ps r) = some (ps, r)
  | [], r => rfl
  | p :: ps, r => by
    have := fnParts_fnTy ps r
    simp only [fnTy, List.foldr_cons] at this ⊢
    simp [fnParts, this]

theorem fnTy_inj {ps qs : List Ty} {r q : Ty} (h : fnTy ps r = fnTy qs q) : ps = qs ∧ r = q := by
  have := congrArg fnParts h
  simpa [fnParts_fnTy] using this

theorem clean_common {a b c : Ty} (ha : clean a = true) (hb : clean b = true) (h : commonType a b = some c) :
    clean c = true := by
  unfold commonType at h
  repeat' split at h
  all_goals first | (injection h with h; subst h; first | assumption | rfl) | simp at h

theorem clean_commonD {a b : Ty} (ha : clean a = true) (hb : clean b = true) :
    clean ((commonType a b).getD a) = true := by
  cases h : commonType a b with
  | none => exact ha
  | some c => exact clean_common ha hb h

/-- a signature without the error type -/
def cleanSig (s : Sig) : Bool := s.params.all (fun p => clean p.2.1) && clean s.ret

theorem builtins_clean : ∀ e ∈ builtins, cleanSig e.2 = true := by decide +kernel
theorem methods_clean : ∀ e ∈ curveMethods ++ solidMethods ++ region2dMethods ++ transformMethods,
    cleanSig e.2 = true := by decide +kernel
theorem typeNames_clean : ∀ e ∈ typeNames, clean e.2 = true := by decide +kernel

theorem tableGet_mem {α : Type} {l : List (String × α)} {n : Name} {a : α} (h : tableGet l n = some a) :
    ∃ e ∈ l, e.2 = a := by
  unfold tableGet at h
  cases hf : l.find? fun e => nm e.1 = n with
  | none => simp [hf] at h
  | some e =>
    rw [hf] at h
    exact ⟨e, List.mem_of_find?_eq_some hf, by simpa using h⟩

theorem clean_builtin {n : Name} {s : Sig} (h : lookupBuiltin n = some s) : cleanSig s = true := by
  obtain ⟨e, he, rfl⟩ := tableGet_mem h
  exact builtins_clean e he

theorem clean_name {n : Name} {t : Ty} (h : resolveName n = some t) : clean t = true := by
  obtain ⟨e, he, rfl⟩ := tableGet_mem h
  exact typeNames_clean e he

theorem clean_method {t : Ty} {n : Name} {s : Sig} (h : methodSig t n = some s) : cleanSig s = true := by
  unfold methodSig at h
  split at h
  · obtain ⟨e, he, rfl⟩ := tableGet_mem h
    exact methods_clean e (by simp [he])
  · obtain ⟨e, he, rfl⟩ := tableGet_mem h
    exact methods_clean e (by simp [he])
  · obtain ⟨e, he, rfl⟩ := tableGet_mem h
    exact methods_clean e (by simp [he])
  · obtain ⟨e, he, rfl⟩ := tableGet_mem h
    exact methods_clean e (by simp [he])
  · simp at h

theorem cleanSig_ret {s : Sig} (h : cleanSig s = true) : clean s.ret = true := by
  simp only [cleanSig, Bool.and_eq_true] at h; exact h.2

theorem cleanSig_params {s : Sig} (h : cleanSig s = true) : ∀ p ∈ s.params.map (·.2.1), clean p = true := by
  simp only [cleanSig, Bool.and_eq_true, List.all_eq_true] at h
  intro p hp
  obtain ⟨q, hq, rfl⟩ := List.mem_map.1 hp
  exact h.1 q hq

theorem clean_denotes {a : Parser.Ty} {t : Ty} (h : Denotes a t) : clean t = true := by
  induction h with
  | simple h => exact clean_name h
  | list _ ih => exact ih
  | opt _ ih => exact ih

theorem clean_denotesOpt {a : Option Parser.Ty} {t : Ty} (h : DenotesOpt a t) : clean t = true := by
  cases h with
  | none => rfl
  | some h => exact clean_denotes h

theorem clean_bin {op : String} {a b t : Ty} (h : BinTy op a b t) (ha : clean a = true) (hb : clean b = true) :
    clean t = true := by
  cases h with
  | geoSum _ => exact clean_commonD ha hb
  | concat => exact clean_commonD (a := _) (b := _) ha hb
  | _ => rfl

theorem clean_numeric {a : Ty} (h : isNumeric a = true) : clean a = true := by
  cases a <;> simp_all [isNumeric, clean]

theorem clean_un {op : String} {a t : Ty} (h : UnTy op a t) : clean t = true := by
  cases h with
  | num h => exact clean_numeric h
  | _ => rfl

theorem clean_elem {a b t : Ty} (h : ElemTy a b t) (ha : clean a = true) (hb : clean b = true) : clean t = true := by
  cases h with
  | fits _ => exact ha
  | widen _ h => exact clean_common ha hb h

theorem clean_cond {a b t : Ty} (h : CondTy a b t) (ha : clean a = true) (hb : clean b = true) : clean t = true := by
  cases h with
  | common h => exact clean_common ha hb h

theorem clean_decl {ty : Option Parser.Ty} {t u : Ty} (h : DeclTy ty t u) (ht : clean t = true) : clean u = true := by
  cases h with
  | infer => exact ht
  | annot h _ => exact clean_denotes h

theorem clean_if {x y : Option Ty} {t : Ty} (h : IfTy x y t) (hx : ∀ a, x = some a → clean a = true)
    (hy : ∀ a, y = some a → clean a = true) : clean t = true := by
  cases h with
  | both => exact clean_commonD (hx _ rfl) (hy _ rfl)
  | noElse => exact hx _ rfl
  | noThen => rfl

theorem clean_builtinRet {n : Name} {s : Sig} {ts : List Ty} (hs : cleanSig s = true) (ht : ∀ t ∈ ts, clean t = true) :
    clean (builtinRet n s ts) = true := by
  have hr := cleanSig_ret hs
  unfold builtinRet
  split
  · split
    · split
      · split
        · have := ht _ (List.mem_cons_self ..)
          simpa [clean] using this
        · exact ht _ (List.mem_cons_self ..)
      · exact hr
    · split
      · split
        · have := ht _ (List.mem_cons_self ..)
          simpa [clean] using this
        · exact hr
      · exact hr
  · exact hr

theorem clean_elemTy {t : Ty} (h : clean t = true) : clean (elemTy t) = true := by
  cases t <;> first | rfl | exact h

theorem clean_arm {r : Option Ty} {a : Ty} (hr : ∀ t, r = some t → clean t = true) (ha : clean a = true) :
    clean (armTy r a) = true := by
  cases r with
  | none => exact ha
  | some t => exact clean_commonD (hr _ rfl) ha

theorem clean_member {t u : Ty} {m : Name} (h : memberTy t m = some u) : clean u = true := by
  unfold memberTy at h
  split at h
  · injection h with h; subst h; rfl
  · simp at h

/-- a proper symbol: a type without errors; functions and commands have function types -/
def SymOk (y : Symb) : Prop := clean y.ty = true ∧ (y.kind = .cmd ∨ y.kind = .func → ∃ ps r, y.ty = fnTy ps r)

/-- a scope of proper symbols -/
def FrameOk (f : Frame) : Prop := ∀ n y, f n = some y → SymOk y

/-- scopes of proper symbols, at least one -/
def Good (Γ : List Frame) : Prop := Γ ≠ [] ∧ ∀ f ∈ Γ, FrameOk f

theorem Good.push {Γ : List Frame} (h : Good Γ) : Good (emptyFrame :: Γ) :=
  ⟨by simp, by
    rw [List.forall_mem_cons]
    exact ⟨fun n y h => by simp [emptyFrame] at h, h.2⟩⟩

theorem lookup_ok : ∀ {Γ : List Frame} {n : Name} {y : Symb}, (∀ f ∈ Γ, FrameOk f) → lookup Γ n = some y → SymOk y
  | [], n, y, _, h => by simp [lookup] at h
  | f :: fs, n, y, hg, h => by
    rw [List.forall_mem_cons] at hg
    unfold lookup at h
    split at h
    · rename_i s hs
      injection h with h
      subst h
      exact hg.1 _ _ hs
    · exact lookup_ok hg.2 h

theorem Good.setTop {Γ : List Frame} (h : Good Γ) (n : Name) {y : Symb} (hy : SymOk y) : Good (setTop Γ n y) := by
  cases Γ with
  | nil => exact absurd rfl h.1
  | cons f fs =>
    obtain ⟨-, h⟩ := h
    rw [List.forall_mem_cons] at h
    refine ⟨by simp [Checker.setTop], ?_⟩
    simp only [Checker.setTop, List.forall_mem_cons]
    refine ⟨?_, h.2⟩
    intro m z hz
    dsimp only at hz
    split at hz
    · injection hz with hz; subst hz; exact hy
    · exact h.1 _ _ hz

theorem setTop_tail (Γ : List Frame) (n : Name) (y : Symb) : (setTop Γ n y).tail = Γ.tail := by cases Γ <;> rfl

theorem Good.bindFree {Γ : List Frame} (h : Good Γ) (n : Name) {k : Kind} {t : Ty} (hy : SymOk ⟨k, t⟩) :
    Good (bindFree Γ n k t) := by
  cases Γ with
  | nil => exact absurd rfl h.1
  | cons f fs =>
    unfold Checker.bindFree
    dsimp only
    split
    · exact h
    · exact h.setTop n hy

theorem bindFree_tail (Γ : List Frame) (n : Name) (k : Kind) (t : Ty) : (bindFree Γ n k t).tail = Γ.tail := by
  cases Γ with
  | nil => rfl
  | cons f fs =>
    unfold Checker.bindFree
    dsimp only
    split <;> rfl

theorem symOk_var {t : Ty} (h : clean t = true) : SymOk ⟨.var, t⟩ := ⟨h, by simp⟩
theorem symOk_param {t : Ty} (h : clean t = true) : SymOk ⟨.param, t⟩ := ⟨h, by simp⟩

theorem Good.params {Γ : List Frame} (h : Good Γ) : ∀ ps : List Name,
    Good (ps.foldl (fun Γ p => Checker.bindFree Γ p .param .unknown) Γ) := by
  intro ps
  induction ps generalizing Γ with
  | nil => exact h
  | cons p ps ih => exact ih (h.bindFree p (symOk_param rfl))

theorem params_tail (Γ : List Frame) : ∀ ps : List Name,
    (ps.foldl (fun Γ p => Checker.bindFree Γ p .param .unknown) Γ).tail = Γ.tail := by
  intro ps
  induction ps generalizing Γ with
  | nil => rfl
  | cons p ps ih => exact (ih _).trans (bindFree_tail _ _ _ _)

/-- scopes that differ in the innermost one at most -/
def Same (Γ Γ' : List Frame) : Prop := Good Γ' ∧ Γ'.tail = Γ.tail

theorem Same.refl {Γ : List Frame} (h : Good Γ) : Same Γ Γ := ⟨h, rfl⟩
theorem Same.trans {Γ Γ1 Γ2 : List Frame} (h : Same Γ Γ1) (h' : Same Γ1 Γ2) : Same Γ Γ2 := ⟨h'.1, h'.2.trans h.2⟩

variable {R : Option Parser.Ty}

mutual
theorem pres : ∀ (e : Expr) {Γ Γ' : List Frame} {t : Ty}, HasTy R Γ e t Γ' → Good Γ → clean t = true ∧ Same Γ Γ'
  | .lit k v, _, _, _, h, g => by
    cases h with
    | lit h =>
      refine ⟨?_, .refl g⟩
      unfold litTy at h ⊢
      repeat' split
      all_goals first | rfl | simp_all
  | .ident n, _, _, _, h, g => by
    cases h with
    | var h => exact ⟨(lookup_ok g.2 h).1, .refl g⟩
    | global _ _ => exact ⟨rfl, .refl g⟩
  | .bin op l r, _, _, _, h, g => by
    cases h with
    | bin h1 h2 h3 =>
      obtain ⟨c1, s1⟩ := pres l h1 g
      obtain ⟨c2, s2⟩ := pres r h2 s1.1
      exact ⟨clean_bin h3 c1 c2, s1.trans s2⟩
  | .un op e, _, _, _, h, g => by
    cases h with
    | un h1 h3 =>
      obtain ⟨c1, s1⟩ := pres e h1 g
      exact ⟨clean_un h3, s1⟩
  | .call f args named, _, _, _, h, g => by
    cases h with
    | builtin hb hr h1 h2 =>
      obtain ⟨c1, s1⟩ := presArgs args h1 g
      have s2 := presNamed named h2 s1.1
      exact ⟨clean_builtinRet (clean_builtin hb) c1, s1.trans s2⟩
    | constructor hb hr h1 h2 =>
      obtain ⟨c1, s1⟩ := presArgs args h1 g
      have s2 := presNamed named h2 s1.1
      exact ⟨clean_name hr, s1.trans s2⟩
    | user hb hr hl hk hy h1 =>
      obtain ⟨c1, s1⟩ := presArgs args h1 g
      have := (lookup_ok g.2 hl).1
      rw [hy, clean_fnTy] at this
      exact ⟨this.2, s1⟩
    | indirect hn h1 => exact ⟨rfl, (pres f h1 g).2⟩
  | .method o m args _, _, _, _, h, g => by
    cases h with
    | method h1 hm h2 =>
      obtain ⟨c1, s1⟩ := pres o h1 g
      obtain ⟨c2, s2⟩ := presArgs args h2 s1.1
      exact ⟨cleanSig_ret (clean_method hm), s1.trans s2⟩
  | .member o m, _, _, _, h, g => by
    cases h with
    | member h1 hm =>
      obtain ⟨c1, s1⟩ := pres o h1 g
      exact ⟨clean_member hm, s1⟩
  | .index o i, _, _, _, h, g => by
    cases h with
    | index h1 h2 =>
      obtain ⟨c1, s1⟩ := pres o h1 g
      obtain ⟨c2, s2⟩ := pres i h2 s1.1
      exact ⟨c1, s1.trans s2⟩
  | .list [], _, _, _, h, g => by
    cases h with
    | empty => exact ⟨rfl, .refl g⟩
  | .list (e :: es), _, _, _, h, g => by
    cases h with
    | list h1 h2 =>
      obtain ⟨c1, s1⟩ := pres e h1 g
      obtain ⟨c2, s2⟩ := presElems es h2 s1.1 c1
      exact ⟨c2, s1.trans s2⟩
  | .comp e cs, _, _, _, h, g => by
    cases h with
    | comp h1 h2 =>
      have s1 := presClauses cs h1 g.push
      exact ⟨(pres e h2 s1.1).1, .refl g⟩
  | .range a b, _, _, _, h, g => by
    cases h with
    | range h1 h2 =>
      obtain ⟨c1, s1⟩ := pres a h1 g
      obtain ⟨c2, s2⟩ := pres b h2 s1.1
      exact ⟨rfl, s1.trans s2⟩
  | .dict es, _, _, _, h, g => by
    cases h with
    | dict h1 => exact ⟨rfl, presNamed es h1 g⟩
  | .lam ps body, _, _, _, h, g => by
    cases h with
    | lam h1 =>
      refine ⟨(clean_fnTy _ _).2 ⟨?_, (pres body h1 (g.push.params ps)).1⟩, .refl g⟩
      intro p hp
      obtain ⟨_, _, rfl⟩ := List.mem_map.1 hp
      rfl
  | .cond c a b, _, _, _, h, g => by
    cases h with
    | cond h1 h2 h3 h4 =>
      obtain ⟨c1, s1⟩ := pres c h1 g
      obtain ⟨c2, s2⟩ := pres a h2 s1.1
      obtain ⟨c3, s3⟩ := pres b h3 s2.1
      exact ⟨clean_cond h4 c2 c3, (s1.trans s2).trans s3⟩
  | .ifE c b elifs none, _, _, _, h, g => by
    cases h with
    | ifNone h1 h2 h3 =>
      obtain ⟨c1, s1⟩ := pres c h1 g
      obtain ⟨c2, s2⟩ := presB b h2 s1.1
      exact ⟨clean_if h3 c2 (by simp), s1.trans s2⟩
  | .ifE c b elifs (some d), _, _, _, h, g => by
    cases h with
    | ifSome h1 h2 h3 h4 =>
      obtain ⟨c1, s1⟩ := pres c h1 g
      obtain ⟨c2, s2⟩ := presB b h2 s1.1
      obtain ⟨c3, s3⟩ := presB d h3 s2.1
      exact ⟨clean_if h4 c2 c3, (s1.trans s2).trans s3⟩
  | .matchE s arms, _, _, _, h, g => by
    cases h with
    | matchE h1 h2 =>
      obtain ⟨c1, s1⟩ := pres s h1 g
      obtain ⟨c2, s2⟩ := presArms arms h2 s1.1 (by simp)
      refine ⟨?_, s1.trans s2⟩
      rename_i r
      cases r with
      | none => rfl
      | some t => exact c2 _ rfl
theorem presArgs : ∀ (es : List Expr) {Γ Γ' : List Frame} {ps ts : List Ty}, ArgsTy R Γ ps es ts Γ' → Good Γ →
    (∀ t ∈ ts, clean t = true) ∧ Same Γ Γ'
  | [], _, _, _, _, h, g => by
    cases h with
    | nil => exact ⟨by simp, .refl g⟩
  | e :: es, _, _, _, _, h, g => by
    cases h with
    | extra h1 h2 =>
      obtain ⟨c1, s1⟩ := pres e h1 g
      obtain ⟨c2, s2⟩ := presArgs es h2 s1.1
      exact ⟨by simpa using ⟨c1, c2⟩, s1.trans s2⟩
    | cons h1 _ h2 =>
      obtain ⟨c1, s1⟩ := pres e h1 g
      obtain ⟨c2, s2⟩ := presArgs es h2 s1.1
      exact ⟨by simpa using ⟨c1, c2⟩, s1.trans s2⟩
theorem presNamed : ∀ (es : List (Name × Expr)) {Γ Γ' : List Frame} {al : Option (List Name)}, NamedOk R Γ al es Γ' →
    Good Γ → Same Γ Γ'
  | [], _, _, _, h, g => by
    cases h with
    | nil => exact .refl g
  | (k, e) :: es, _, _, _, h, g => by
    cases h with
    | cons h1 _ h2 =>
      have s1 := (pres e h1 g).2
      exact s1.trans (presNamed es h2 s1.1)
theorem presElems : ∀ (es : List Expr) {Γ Γ' : List Frame} {t u : Ty}, ElemsTy R Γ t es u Γ' → Good Γ →
    clean t = true → clean u = true ∧ Same Γ Γ'
  | [], _, _, _, _, h, g, hc => by
    cases h with
    | nil => exact ⟨hc, .refl g⟩
  | e :: es, _, _, _, _, h, g, hc => by
    cases h with
    | cons h1 h2 h3 =>
      obtain ⟨c1, s1⟩ := pres e h1 g
      obtain ⟨c2, s2⟩ := presElems es h3 s1.1 (clean_elem h2 hc c1)
      exact ⟨c2, s1.trans s2⟩
theorem presClauses : ∀ (cs : List Clause) {Γ Γ' : List Frame}, ClausesOk R Γ cs Γ' → Good Γ → Same Γ Γ'
  | [], _, _, h, g => by
    cases h with
    | nil => exact .refl g
  | .mk v it conds :: cs, _, _, h, g => by
    cases h with
    | cons h1 h2 h3 =>
      obtain ⟨c1, s1⟩ := pres it h1 g
      have s2 := presConds conds h2 (s1.1.bindFree v (symOk_var (clean_elemTy c1)))
      have s3 := presClauses cs h3 s2.1
      exact s1.trans (Same.trans ⟨s2.1, s2.2.trans (bindFree_tail _ _ _ _)⟩ s3)
theorem presConds : ∀ (es : List Expr) {Γ Γ' : List Frame}, CondsOk R Γ es Γ' → Good Γ → Same Γ Γ'
  | [], _, _, h, g => by
    cases h with
    | nil => exact .refl g
  | e :: es, _, _, h, g => by
    cases h with
    | cons h1 h2 =>
      have s1 := (pres e h1 g).2
      exact s1.trans (presConds es h2 s1.1)
theorem presArms : ∀ (as : List (Pat × Expr)) {Γ Γ' : List Frame} {r r' : Option Ty}, ArmsTy R Γ r as r' Γ' → Good Γ →
    (∀ t, r = some t → clean t = true) → (∀ t, r' = some t → clean t = true) ∧ Same Γ Γ'
  | [], _, _, _, _, h, g, hc => by
    cases h with
    | nil => exact ⟨hc, .refl g⟩
  | (p, e) :: as, _, _, _, _, h, g, hc => by
    cases h with
    | cons h1 h2 =>
      obtain ⟨c1, s1⟩ := pres e h1 g
      obtain ⟨c2, s2⟩ := presArms as h2 s1.1 (by
        intro t ht
        injection ht with ht
        subst ht
        exact clean_arm hc c1)
      exact ⟨c2, s1.trans s2⟩
theorem presS : ∀ (s : Stmt) {Γ Γ' : List Frame}, StmtOk R Γ s Γ' → Good Γ → Same Γ Γ'
  | .letS n ty e, _, _, h, g => by
    cases h with
    | letS h1 h2 h3 =>
      obtain ⟨c1, s1⟩ := pres e h1 g
      exact s1.trans ⟨s1.1.setTop n (symOk_var (clean_decl h2 c1)), setTop_tail _ _ _⟩
  | .varDecl n ty none, _, _, h, g => by cases h
  | .varDecl n ty (some e), _, _, h, g => by
    cases h with
    | varDecl h1 h2 h3 =>
      obtain ⟨c1, s1⟩ := pres e h1 g
      exact s1.trans ⟨s1.1.setTop n (symOk_var (clean_decl h2 c1)), setTop_tail _ _ _⟩
  | .assign l e, _, _, h, g => by
    cases h with
    | assign h1 h2 h3 =>
      have s1 := (pres l h1 g).2
      exact s1.trans (pres e h2 s1.1).2
  | .require c none, _, _, h, g => by
    cases h with
    | require h1 => exact (pres c h1 g).2
  | .require c (some m), _, _, h, g => by
    cases h with
    | requireMsg h1 h2 =>
      have s1 := (pres c h1 g).2
      exact s1.trans (pres m h2 s1.1).2
  | .assertS c none, _, _, h, g => by
    cases h with
    | assertS h1 => exact (pres c h1 g).2
  | .assertS c (some m), _, _, h, g => by
    cases h with
    | assertMsg h1 h2 =>
      have s1 := (pres c h1 g).2
      exact s1.trans (pres m h2 s1.1).2
  | .emit v md, _, _, h, g => by
    cases h with
    | emit h1 _ h2 =>
      have s1 := (pres v h1 g).2
      exact s1.trans (presNamed md h2 s1.1)
  | .forS v it body, _, _, h, g => by
    cases h with
    | forS h1 h2 => exact (pres it h1 g).2
  | .ifS c b elifs none, _, _, h, g => by
    cases h with
    | ifNone h1 h2 h3 =>
      have s1 := (pres c h1 g).2
      exact s1.trans (presElifs elifs h3 s1.1)
  | .ifS c b elifs (some d), _, _, h, g => by
    cases h with
    | ifSome h1 h2 h3 h4 =>
      have s1 := (pres c h1 g).2
      exact s1.trans (presElifs elifs h3 s1.1)
  | .pass, _, _, h, g => by
    cases h with
    | pass => exact .refl g
  | .exprS e, _, _, h, g => by
    cases h with
    | exprS h1 => exact (pres e h1 g).2
  | .ret _, _, _, h, g => by cases h
  | .py _, _, _, h, g => by
    cases h with
    | py => exact .refl g
theorem presElifs : ∀ (bs : List (Expr × Block)) {Γ Γ' : List Frame}, ElifsOk R Γ bs Γ' → Good Γ → Same Γ Γ'
  | [], _, _, h, g => by
    cases h with
    | nil => exact .refl g
  | (c, b) :: bs, _, _, h, g => by
    cases h with
    | cons h1 h2 h3 =>
      have s1 := (pres c h1 g).2
      exact s1.trans (presElifs bs h3 s1.1)
theorem presB : ∀ (b : Block) {Γ Γ' : List Frame} {x : Option Ty}, BlockTy R Γ b x Γ' → Good Γ →
    (∀ t, x = some t → clean t = true) ∧ Same Γ Γ'
  | .mk ss none, _, _, _, h, g => by
    cases h with
    | none h1 => exact ⟨by simp, presSs ss h1 g⟩
  | .mk ss (some e), _, _, _, h, g => by
    cases h with
    | some h1 h2 =>
      have s1 := presSs ss h1 g
      obtain ⟨c, s2⟩ := pres e h2 s1.1
      refine ⟨?_, s1.trans s2⟩
      intro t ht
      injection ht with ht
      subst ht
      exact c
theorem presSs : ∀ (ss : List Stmt) {Γ Γ' : List Frame}, StmtsOk R Γ ss Γ' → Good Γ → Same Γ Γ'
  | [], _, _, h, g => by
    cases h with
    | nil => exact .refl g
  | s :: ss, _, _, h, g => by
    cases h with
    | cons h1 h2 =>
      have s1 := presS s h1 g
      exact s1.trans (presSs ss h2 s1.1)
end

end Verif.Checker
