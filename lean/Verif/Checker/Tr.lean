import Verif.Checker.Pres

/-! # Runs without errors, step by step -/

namespace Verif.Checker

open Verif.Types (Ty accepts commonType isNumeric isPoint isVector)
open Verif.Parser (Name Expr Clause Stmt Block Pat Mod Fn Param NBlock NFn NDecl)

/-- started without errors in the scopes `Γ`, the step ends without errors with result `a` in the scopes `Γ'` exactly when
`P a Γ'` -/
def Tr {α : Type} (Γ : List Frame) (m : M α) (P : α → List Frame → Prop) : Prop :=
  ∀ s, errCount s = 0 → s.scopes = Γ → ∀ a Γ', (∃ s', m s = .ok (a, s') ∧ errCount s' = 0 ∧ s'.scopes = Γ') ↔ P a Γ'

theorem errCount_mono {α : Type} {m : M α} (hm : Mono m) {s s' : St} {a : α} (h : m s = .ok (a, s')) :
    errCount s ≤ errCount s' := by
  obtain ⟨⟨l, hl⟩, -, -⟩ := hm _ _ _ h
  simp [errCount, ← hl]

namespace Tr

variable {α β : Type} {Γ : List Frame}

theorem iff {m : M α} {P Q : α → List Frame → Prop} (h : Tr Γ m P) (hpq : ∀ a Γ', P a Γ' ↔ Q a Γ') : Tr Γ m Q :=
  fun s h0 hs a Γ' => (h s h0 hs a Γ').trans (hpq a Γ')

theorem bind {m : M α} {k : α → M β} {P : α → List Frame → Prop} {Q : α → List Frame → β → List Frame → Prop}
    (hm : Tr Γ m P) (mono : ∀ a, Mono (k a)) (hk : ∀ a Γ1, P a Γ1 → Tr Γ1 (k a) (Q a Γ1)) :
    Tr Γ (m >>= k) (fun b Γ' => ∃ a Γ1, P a Γ1 ∧ Q a Γ1 b Γ') := by
  intro s h0 hs b Γ'
  constructor
  · rintro ⟨s', h, h0', hs'⟩
    simp only [Bind.bind, Checker.bind] at h
    cases hh : m s with
    | error e => simp [hh] at h
    | ok x =>
      obtain ⟨a, s1⟩ := x
      simp only [hh] at h
      have h1 : errCount s1 = 0 := by
        have := errCount_mono (mono a) h
        omega
      have hp := (hm s h0 hs a s1.scopes).1 ⟨s1, hh, h1, rfl⟩
      exact ⟨a, s1.scopes, hp, (hk a _ hp s1 h1 rfl b Γ').1 ⟨s', h, h0', hs'⟩⟩
  · rintro ⟨a, Γ1, hp, hq⟩
    obtain ⟨s1, hh, h1, hs1⟩ := (hm s h0 hs a Γ1).2 hp
    obtain ⟨s', h, h0', hs'⟩ := (hk a _ hp s1 h1 hs1 b Γ').2 hq
    exact ⟨s', by simp only [Bind.bind, Checker.bind, hh]; exact h, h0', hs'⟩

theorem pure (a : α) : Tr Γ (Pure.pure a : M α) (fun b Γ' => b = a ∧ Γ' = Γ) := by
  intro s h0 hs b Γ'
  constructor
  · rintro ⟨s', h, -, h'⟩
    simp only [Pure.pure, Except.ok.injEq, Prod.mk.injEq] at h
    obtain ⟨rfl, rfl⟩ := h
    exact ⟨rfl, h'.symm.trans hs⟩
  · rintro ⟨rfl, rfl⟩
    exact ⟨s, rfl, h0, hs⟩

theorem crash : Tr Γ (Checker.crash : M α) (fun _ _ => False) := by
  intro s h0 hs b Γ'
  simp [Checker.crash]

theorem err (c : String) (l : List Name) : Tr Γ (Checker.err c l) (fun _ _ => False) := by
  intro s h0 hs b Γ'
  constructor
  · rintro ⟨s', h, h0', -⟩
    simp only [Checker.err, Except.ok.injEq, Prod.mk.injEq] at h
    obtain ⟨-, rfl⟩ := h
    simp [errCount] at h0'
  · simp

theorem warn (c : String) (l : List Name) : Tr Γ (Checker.warn c l) (fun _ Γ' => Γ' = Γ) := by
  intro s h0 hs b Γ'
  constructor
  · rintro ⟨s', h, h0', rfl⟩
    simp only [Checker.warn, Except.ok.injEq, Prod.mk.injEq] at h
    obtain ⟨-, rfl⟩ := h
    exact hs
  · rintro rfl
    exact ⟨_, rfl, by simpa [errCount] using h0, hs⟩

theorem setPy : Tr Γ Checker.setPy (fun _ Γ' => Γ' = Γ) := by
  intro s h0 hs b Γ'
  constructor
  · rintro ⟨s', h, h0', rfl⟩
    simp only [Checker.setPy, Except.ok.injEq, Prod.mk.injEq] at h
    obtain ⟨-, rfl⟩ := h
    exact hs
  · rintro rfl
    exact ⟨_, rfl, by simpa [errCount] using h0, hs⟩

theorem errIf (b : Bool) (c : String) (l : List Name) :
    Tr Γ (Checker.errIf b c l) (fun _ Γ' => b = false ∧ Γ' = Γ) := by
  unfold Checker.errIf
  cases b with
  | true => exact (err c l).iff fun _ _ => by simp
  | false => exact (pure ()).iff fun _ _ => by simp

/-- an error and then anything -/
theorem err_bind {c : String} {l : List Name} {k : Unit → M β} (mono : ∀ a, Mono (k a)) :
    Tr Γ (Checker.err c l >>= k) (fun _ _ => False) :=
  (bind (Q := fun _ _ _ _ => True) (err c l) mono (fun _ _ h => h.elim)).iff fun _ _ => by simp

/-- a failing test and then anything; a passing test and then something -/
theorem errIf_bind {c : String} {l : List Name} {b : Bool} {k : Unit → M β} {P : β → List Frame → Prop}
    (mono : ∀ a, Mono (k a)) (h : b = false → Tr Γ (k ()) P) :
    Tr Γ (Checker.errIf b c l >>= k) (fun a Γ' => b = false ∧ P a Γ') :=
  (bind (Q := fun _ _ => P) (errIf b c l) mono (fun _ Γ1 hb => by
    obtain ⟨hb, rfl⟩ := hb
    exact h hb)).iff fun _ _ => by simp

theorem push : Tr Γ Checker.push (fun _ Γ' => Γ' = emptyFrame :: Γ) := by
  intro s h0 hs b Γ'
  constructor
  · rintro ⟨s', h, h0', rfl⟩
    simp only [Checker.push, Except.ok.injEq, Prod.mk.injEq] at h
    obtain ⟨-, rfl⟩ := h
    simp [hs]
  · rintro rfl
    exact ⟨_, rfl, by simpa [errCount] using h0, by simp [hs]⟩

theorem pop {Γ1 : List Frame} (h1 : Γ1 ≠ []) (h2 : Γ ≠ []) (ht : Γ1.tail = Γ) :
    Tr Γ1 Checker.pop (fun _ Γ' => Γ' = Γ) := by
  intro s h0 hs b Γ'
  have : (match s.scopes with | _ :: f :: fs => f :: fs | l => l) = Γ := by
    rw [hs]
    cases Γ1 with
    | nil => exact absurd rfl h1
    | cons f fs =>
      simp only [List.tail_cons] at ht
      subst ht
      cases fs with
      | nil => exact absurd rfl h2
      | cons g gs => rfl
  constructor
  · rintro ⟨s', h, h0', rfl⟩
    simp only [Checker.pop, Except.ok.injEq, Prod.mk.injEq] at h
    obtain ⟨-, rfl⟩ := h
    exact this
  · rintro rfl
    exact ⟨_, rfl, by simpa [errCount] using h0, this⟩

theorem define (hg : Γ ≠ []) (n : Name) (k : Kind) (t : Ty) :
    Tr Γ (Checker.define n k t) (fun b Γ' => (b = true ↔ topFree Γ n) ∧ Γ' = bindFree Γ n k t) := by
  intro s h0 hs b Γ'
  cases Γ with
  | nil => exact absurd rfl hg
  | cons f fs =>
    unfold Checker.define
    simp only [hs, bindFree]
    cases hf : f n with
    | none =>
      have ht : topFree (f :: fs) n := ⟨f, fs, rfl, hf⟩
      simp only [Option.isSome_none, Bool.false_eq_true, if_false, Except.ok.injEq, Prod.mk.injEq]
      constructor
      · rintro ⟨s', ⟨rfl, rfl⟩, h0', rfl⟩
        exact ⟨by simp [ht], rfl⟩
      · rintro ⟨hb, rfl⟩
        exact ⟨_, ⟨(hb.2 ht).symm, rfl⟩, h0, rfl⟩
    | some y =>
      have ht : ¬ topFree (f :: fs) n := by
        rintro ⟨g, gs, hh, hg⟩
        injection hh with h1 h2
        subst h1
        simp [hf] at hg
      simp only [Option.isSome_some, if_true, Except.ok.injEq, Prod.mk.injEq]
      constructor
      · rintro ⟨s', ⟨rfl, rfl⟩, h0', rfl⟩
        exact ⟨by simp [ht], hs⟩
      · rintro ⟨hb, rfl⟩
        refine ⟨s, ⟨?_, rfl⟩, h0, hs⟩
        cases b with
        | false => rfl
        | true => exact absurd (hb.1 rfl) ht

theorem bindFree_free {n : Name} {k : Kind} {t : Ty} (h : topFree Γ n) : bindFree Γ n k t = setTop Γ n ⟨k, t⟩ := by
  obtain ⟨f, fs, rfl, hf⟩ := h
  simp [bindFree, hf]

theorem defineOr (hg : Γ ≠ []) (n : Name) (k : Kind) (t : Ty) (c : String) :
    Tr Γ (Checker.defineOr n k t c) (fun _ Γ' => topFree Γ n ∧ Γ' = setTop Γ n ⟨k, t⟩) := by
  refine (bind (define hg n k t) (fun _ => Mono.errIf _ _ _) (fun b Γ1 _ => errIf (!b) c [n])).iff fun _ Γ' => ?_
  constructor
  · rintro ⟨b, Γ1, ⟨hb, rfl⟩, h1, rfl⟩
    have hf := hb.1 (by simpa using h1)
    exact ⟨hf, bindFree_free hf⟩
  · rintro ⟨hf, rfl⟩
    exact ⟨true, _, ⟨by simp [hf], rfl⟩, rfl, (bindFree_free hf).symm⟩

theorem guardE {K : Cfg} (hK : 1 ≤ K.max) {m : M Ty} {P : Ty → List Frame → Prop} (h : Tr Γ m P) :
    Tr Γ (Checker.guardE K m) P := by
  intro s h0 hs a Γ'
  unfold Checker.guardE
  rw [if_neg (by omega)]
  exact h s h0 hs a Γ'

theorem guardS {K : Cfg} (hK : 1 ≤ K.max) {m : M Unit} {P : Unit → List Frame → Prop} (h : Tr Γ m P) :
    Tr Γ (Checker.guardS K m) P := by
  intro s h0 hs a Γ'
  unfold Checker.guardS
  rw [if_neg (by omega)]
  exact h s h0 hs a Γ'

theorem noteCall (K : Cfg) (n : Name) : Tr Γ (Checker.noteCall K n) (fun _ Γ' => Γ' = Γ) := by
  intro s h0 hs b Γ'
  have h1 : ∀ s', Checker.noteCall K n s = .ok (b, s') → errCount s' = 0 ∧ s'.scopes = Γ := by
    intro s' h
    simp only [Checker.noteCall, Except.ok.injEq, Prod.mk.injEq] at h
    obtain ⟨-, rfl⟩ := h
    split
    · exact ⟨h0, hs⟩
    · exact ⟨h0, hs⟩
  constructor
  · rintro ⟨s', h, h0', rfl⟩
    exact (h1 _ h).2
  · rintro rfl
    exact ⟨_, rfl, h1 _ rfl⟩

theorem calleeSym (n : Name) : Tr Γ (Checker.calleeSym n)
    (fun y Γ' => y = (lookup Γ n).filter (fun y => y.kind = .cmd ∨ y.kind = .func) ∧ Γ' = Γ) := by
  intro s h0 hs b Γ'
  simp only [Checker.calleeSym, Except.ok.injEq, Prod.mk.injEq]
  constructor
  · rintro ⟨s', ⟨rfl, rfl⟩, -, rfl⟩
    exact ⟨by rw [hs], hs⟩
  · rintro ⟨rfl, rfl⟩
    exact ⟨s, ⟨by rw [hs], rfl⟩, h0, hs⟩

/-- a step that does not change the scopes and whose result is known -/
theorem val {m : M α} {P : α → Prop} (h : ∀ Γ, Tr Γ m (fun a Γ' => P a ∧ Γ' = Γ)) {k : α → M β}
    (mono : ∀ a, Mono (k a)) {Q : α → β → List Frame → Prop} (hk : ∀ a, P a → Tr Γ (k a) (Q a)) :
    Tr Γ (m >>= k) (fun b Γ' => ∃ a, P a ∧ Q a b Γ') :=
  (bind (Q := fun a _ => Q a) (h Γ) mono (fun a Γ1 hp => by
    obtain ⟨hp, rfl⟩ := hp
    exact hk a hp)).iff fun b Γ' => by
      constructor
      · rintro ⟨a, Γ1, ⟨hp, rfl⟩, hq⟩
        exact ⟨a, hp, hq⟩
      · rintro ⟨a, hp, hq⟩
        exact ⟨a, Γ, ⟨hp, rfl⟩, hq⟩

end Tr

/-! ### types and operators -/

variable {Γ : List Frame}

mutual
theorem tr_resolve (Γ : List Frame) : ∀ t : Parser.Ty, Tr Γ (resolve t) (fun u Γ' => Denotes t u ∧ Γ' = Γ)
  | .simple n => by
    unfold resolve
    cases h : resolveName n with
    | none =>
      refine (Tr.err_bind (fun _ => Mono.pure _)).iff fun u Γ' => ⟨False.elim, ?_⟩
      rintro ⟨hd, -⟩
      cases hd with
      | simple hs => simp [h] at hs
    | some u =>
      refine (Tr.pure u).iff fun v Γ' => ?_
      constructor
      · rintro ⟨rfl, rfl⟩
        exact ⟨.simple h, rfl⟩
      · rintro ⟨hd, rfl⟩
        cases hd with
        | simple hs =>
          rw [h] at hs
          injection hs with hs
          exact ⟨hs.symm, rfl⟩
  | .generic n args => by
    unfold resolve
    by_cases hn : n = nm "list"
    · rw [if_pos hn]
      subst hn
      exact tr_resolveArg Γ args
    · rw [if_neg hn]
      refine (Tr.err_bind (fun _ => Mono.pure _)).iff fun u Γ' => ⟨False.elim, ?_⟩
      rintro ⟨hd, -⟩
      cases hd with
      | list _ => exact hn rfl
  | .opt t => by
    unfold resolve
    refine (Tr.bind (tr_resolve Γ t) (fun _ => Mono.pure _) (fun u Γ1 _ => Tr.pure _)).iff fun v Γ' => ?_
    constructor
    · rintro ⟨u, Γ1, ⟨hd, rfl⟩, rfl, rfl⟩
      exact ⟨.opt hd, rfl⟩
    · rintro ⟨hd, rfl⟩
      cases hd with
      | opt hd => exact ⟨_, _, ⟨hd, rfl⟩, rfl, rfl⟩
theorem tr_resolveArg (Γ : List Frame) : ∀ ts : List Parser.Ty,
    Tr Γ (resolveArg ts) (fun u Γ' => Denotes (.generic (nm "list") ts) u ∧ Γ' = Γ)
  | [] => by
    unfold resolveArg
    refine (Tr.err_bind (fun _ => Mono.pure _)).iff fun u Γ' => ⟨False.elim, ?_⟩
    rintro ⟨hd, -⟩
    cases hd
  | [t] => by
    unfold resolveArg
    refine (Tr.bind (tr_resolve Γ t) (fun _ => Mono.pure _) (fun u Γ1 _ => Tr.pure _)).iff fun v Γ' => ?_
    constructor
    · rintro ⟨u, Γ1, ⟨hd, rfl⟩, rfl, rfl⟩
      exact ⟨.list hd, rfl⟩
    · rintro ⟨hd, rfl⟩
      cases hd with
      | list hd => exact ⟨_, _, ⟨hd, rfl⟩, rfl, rfl⟩
  | _ :: _ :: _ => by
    unfold resolveArg
    refine (Tr.err_bind (fun _ => Mono.pure _)).iff fun u Γ' => ⟨False.elim, ?_⟩
    rintro ⟨hd, -⟩
    cases hd
end

theorem tr_resolveOpt (Γ : List Frame) (t : Option Parser.Ty) :
    Tr Γ (resolveOpt t) (fun u Γ' => DenotesOpt t u ∧ Γ' = Γ) := by
  cases t with
  | none =>
    refine (Tr.pure _).iff fun u Γ' => ?_
    constructor
    · rintro ⟨rfl, rfl⟩; exact ⟨.none, rfl⟩
    · rintro ⟨h, rfl⟩; cases h; exact ⟨rfl, rfl⟩
  | some t =>
    refine (tr_resolve Γ t).iff fun u Γ' => ?_
    constructor
    · rintro ⟨h, rfl⟩; exact ⟨.some h, rfl⟩
    · rintro ⟨h, rfl⟩; cases h with | some h => exact ⟨h, rfl⟩

/-- wanted and found: the test for a Boolean -/
theorem tr_wantBool {t : Ty} (h : clean t = true) (c : String) :
    Tr Γ (wantBool t c) (fun _ Γ' => t = .prim .bool ∧ Γ' = Γ) := by
  refine (Tr.errIf _ _ _).iff fun _ _ => ?_
  have := clean_ne h
  simp [this]

theorem tr_wantInt {t : Ty} (h : clean t = true) (c : String) :
    Tr Γ (wantInt t c) (fun _ Γ' => t = .prim .int ∧ Γ' = Γ) := by
  refine (Tr.errIf _ _ _).iff fun _ _ => ?_
  have := clean_ne h
  simp [this]

/-- a value or an error -/
theorem tr_optErr {o : Option Ty} {b : Bool} {c : String} {l : List Name} (hb : b = true) :
    Tr Γ (match o with | some t => (pure t : M Ty) | none => do errIf b c l; pure .error)
      (fun t Γ' => o = some t ∧ Γ' = Γ) := by
  cases o with
  | none =>
    subst hb
    exact (Tr.errIf_bind (P := fun _ _ => True) (fun _ => Mono.pure _) (fun h => by simp at h)).iff fun _ _ => by simp
  | some t => exact (Tr.pure t).iff fun _ _ => by simp [eq_comm]

theorem numeric_cases {a : Ty} (h : isNumeric a = true) : a = .prim .int ∨ a = .prim .float := by
  cases a with
  | prim p => cases p <;> simp_all [isNumeric]
  | _ => simp [isNumeric] at h

theorem geo_cases {a : Ty} (h : isGeo a = true) : ∃ g, a = .geo g := by
  cases a with
  | geo g => exact ⟨g, rfl⟩
  | _ => simp [isGeo] at h

theorem arithTy_complete {op : String} {a b t : Ty} (ho : op ∈ arithOps) (h : BinTy op a b t) :
    arithTy op a b = some t := by
  cases h with
  | int h =>
    simp only [List.mem_cons, List.not_mem_nil, or_false] at h
    rcases h with rfl | rfl | rfl | rfl | rfl <;> simp [arithTy, isNumeric]
  | div h1 h2 =>
    rcases numeric_cases h1 with rfl | rfl <;> rcases numeric_cases h2 with rfl | rfl <;> simp [arithTy, isNumeric]
  | floorDiv h1 h2 =>
    rcases numeric_cases h1 with rfl | rfl <;> rcases numeric_cases h2 with rfl | rfl <;> simp [arithTy, isNumeric]
  | floatL h h2 =>
    simp only [List.mem_cons, List.not_mem_nil, or_false] at h
    rcases numeric_cases h2 with rfl | rfl <;>
    rcases h with rfl | rfl | rfl | rfl | rfl <;> simp [arithTy, isNumeric]
  | floatR h =>
    simp only [List.mem_cons, List.not_mem_nil, or_false] at h
    rcases h with rfl | rfl | rfl | rfl | rfl <;> simp [arithTy, isNumeric]
  | geoScalar h h2 =>
    rcases numeric_cases h2 with rfl | rfl <;> simp [arithTy, isNumeric, isGeo]
  | geoSum h => rcases h with rfl | rfl <;> simp [arithTy, isNumeric, isGeo]
  | @concat t u =>
    simp only [arithTy, isNumeric, isGeo, Bool.false_and, Bool.and_self, Bool.false_eq_true, if_false, if_true]
    cases commonType t u <;> rfl
  | compare h => simp [arithOps] at ho h; rcases h with rfl | rfl | rfl | rfl <;> simp at ho
  | equal h => rcases h with rfl | rfl <;> simp [arithOps] at ho
  | logic h => rcases h with rfl | rfl <;> simp [arithOps] at ho

theorem arithTy_sound {op : String} {a b t : Ty} (ho : op ∈ arithOps) (h : arithTy op a b = some t) : BinTy op a b t := by
  unfold arithTy at h
  by_cases h1 : (isNumeric a && isNumeric b) = true
  · rw [if_pos h1] at h
    simp only [Bool.and_eq_true] at h1
    obtain ⟨ha, hb⟩ := h1
    simp only [arithOps, List.mem_cons, List.not_mem_nil, or_false] at ho
    by_cases hd : op = "DOUBLE_SLASH"
    · rw [if_pos hd] at h
      injection h with h
      subst h hd
      exact .floorDiv ha hb
    · rw [if_neg hd] at h
      by_cases hs : op = "SLASH"
      · rw [if_pos (by simp [hs])] at h
        injection h with h
        subst h hs
        exact .div ha hb
      · have h5 : op ∈ ["PLUS", "MINUS", "STAR", "PERCENT", "DOUBLE_STAR"] := by
          simp only [List.mem_cons, List.not_mem_nil, or_false]
          tauto
        rcases numeric_cases ha with rfl | rfl
        · rcases numeric_cases hb with rfl | rfl
          · simp [hs] at h
            subst h
            exact .int h5
          · simp at h
            subst h
            exact .floatR h5
        · simp at h
          subst h
          exact .floatL h5 hb
  · rw [if_neg h1] at h
    by_cases h2 : (isGeo a && isNumeric b) = true
    · rw [if_pos h2] at h
      simp only [Bool.and_eq_true] at h2
      obtain ⟨g, rfl⟩ := geo_cases h2.1
      injection h with h
      subst h
      exact .geoScalar ho h2.2
    · rw [if_neg h2] at h
      by_cases h3 : (isGeo a && isGeo b && (op = "PLUS" || op = "MINUS")) = true
      · rw [if_pos h3] at h
        simp only [Bool.and_eq_true, Bool.or_eq_true, decide_eq_true_eq] at h3
        obtain ⟨g, rfl⟩ := geo_cases h3.1.1
        obtain ⟨g', rfl⟩ := geo_cases h3.1.2
        injection h with h
        subst h
        exact .geoSum h3.2
      · rw [if_neg h3] at h
        split at h
        · split at h
          · rename_i hop
            subst hop
            rename_i t u
            have hh := @BinTy.concat t u
            cases hc : commonType t u with
            | some c =>
              rw [hc] at h hh
              injection h with h
              subst h
              exact hh
            | none =>
              rw [hc] at h hh
              injection h with h
              subst h
              exact hh
          · simp at h
        · simp at h

theorem tr_binTy {op : String} {a b : Ty} (ho : op ∈ binOps) (ha : clean a = true) (hb : clean b = true) :
    Tr Γ (binTy op a b) (fun t Γ' => BinTy op a b t ∧ Γ' = Γ) := by
  have na := clean_ne ha
  have nb := clean_ne hb
  unfold binTy
  by_cases h1 : op ∈ arithOps
  · rw [if_pos h1]
    refine (tr_optErr (o := arithTy op a b) (by simp [na, nb])).iff fun t Γ' => ?_
    constructor
    · rintro ⟨h, rfl⟩; exact ⟨arithTy_sound h1 h, rfl⟩
    · rintro ⟨h, rfl⟩; exact ⟨arithTy_complete h1 h, rfl⟩
  · rw [if_neg h1]
    have e1 : ∀ {l : List String}, (∀ x ∈ l, x ∈ arithOps) → op ∉ l := fun hl h => h1 (hl _ h)
    have e5 : op ∉ ["PLUS", "MINUS", "STAR", "PERCENT", "DOUBLE_STAR"] := e1 (by decide)
    have e2 : op ≠ "PLUS" := fun h => h1 (h ▸ by decide)
    have e3 : op ≠ "MINUS" := fun h => h1 (h ▸ by decide)
    have e4 : op ≠ "SLASH" := fun h => h1 (h ▸ by decide)
    have e6 : op ≠ "DOUBLE_SLASH" := fun h => h1 (h ▸ by decide)
    by_cases h2 : op ∈ ["LT", "GT", "LE", "GE"]
    · rw [if_pos h2]
      have f1 : ¬ (op = "EQ" ∨ op = "NE") := by rintro (rfl | rfl) <;> revert h2 <;> decide
      have f2 : ¬ (op = "AND" ∨ op = "OR") := by rintro (rfl | rfl) <;> revert h2 <;> decide
      have key : ∀ t, BinTy op a b t ↔ (isNumeric a && isNumeric b) = true ∧ t = .prim .bool := by
        intro t
        constructor
        · intro h
          cases h with
          | compare _ ha hb => simp [ha, hb]
          | _ => first | contradiction | (exfalso; simp_all)
        · rintro ⟨h, rfl⟩
          simp only [Bool.and_eq_true] at h
          exact .compare h2 h.1 h.2
      by_cases h3 : (isNumeric a && isNumeric b) = true
      · rw [if_pos h3]
        exact (Tr.pure _).iff fun t Γ' => by simp [key, h3]
      · rw [if_neg h3]
        exact (Tr.errIf_bind (P := fun _ _ => True) (fun _ => Mono.pure _) (fun h => by simp [na, nb] at h)).iff
          fun t Γ' => by simp [key, h3, na, nb]
    · rw [if_neg h2]
      by_cases h3 : op ∈ ["EQ", "NE"]
      · rw [if_pos h3]
        simp only [List.mem_cons, List.not_mem_nil, or_false] at h3
        have f2 : ¬ (op = "AND" ∨ op = "OR") := by rcases h3 with rfl | rfl <;> decide
        have key : ∀ t, BinTy op a b t ↔ t = .prim .bool := by
          intro t
          constructor
          · intro h
            cases h with
            | equal _ => rfl
            | _ => first | contradiction | (exfalso; simp_all)
          · rintro rfl
            exact .equal h3
        exact (Tr.pure _).iff fun t Γ' => by simp [key]
      · rw [if_neg h3]
        have h4 : op = "AND" ∨ op = "OR" := by
          simp only [binOps, List.mem_append] at ho
          simp only [List.mem_cons, List.not_mem_nil, or_false] at ho h2 h3
          tauto
        rw [if_pos (by simpa using h4)]
        simp only [List.mem_cons, List.not_mem_nil, or_false] at h3
        have key : ∀ t, BinTy op a b t ↔ a = .prim .bool ∧ b = .prim .bool ∧ t = .prim .bool := by
          intro t
          constructor
          · intro h
            cases h with
            | logic _ => exact ⟨rfl, rfl, rfl⟩
            | _ => first | contradiction | (exfalso; simp_all)
          · rintro ⟨rfl, rfl, rfl⟩
            exact .logic h4
        refine (Tr.bind (tr_wantBool ha _) (fun _ => Mono.bind (by unfold wantBool; mono) fun _ => Mono.pure _)
          (fun _ Γ1 _ => Tr.bind (tr_wantBool hb _) (fun _ => Mono.pure _) (fun _ _ _ => Tr.pure _))).iff fun t Γ' => ?_
        rw [key]
        constructor
        · rintro ⟨-, _, ⟨h1, rfl⟩, -, _, ⟨h2, rfl⟩, h3, rfl⟩
          exact ⟨⟨h1, h2, h3⟩, rfl⟩
        · rintro ⟨⟨h1, h2, h3⟩, rfl⟩
          exact ⟨(), _, ⟨h1, rfl⟩, (), _, ⟨h2, rfl⟩, h3, rfl⟩

theorem unTy_not {op : String} {a t : Ty} (h : UnTy op a t) (ho : op = "NOT") : a = .prim .bool ∧ t = .prim .bool := by
  cases h with
  | not => exact ⟨rfl, rfl⟩
  | num _ => simp at ho
  | geo => simp at ho

theorem unTy_minus {op : String} {a t : Ty} (h : UnTy op a t) (ho : op = "MINUS") :
    (isNumeric a || isGeo a) = true ∧ t = a := by
  cases h with
  | not => simp at ho
  | num h => simp [h]
  | geo => simp [isGeo]

theorem tr_unTy {op : String} {a : Ty} (ho : op = "NOT" ∨ op = "MINUS") (ha : clean a = true) :
    Tr Γ (unTy op a) (fun t Γ' => UnTy op a t ∧ Γ' = Γ) := by
  have na := clean_ne ha
  unfold unTy
  rcases ho with rfl | rfl
  · rw [if_pos rfl]
    refine (Tr.bind (tr_wantBool ha _) (fun _ => Mono.pure _) (fun _ _ _ => Tr.pure _)).iff fun t Γ' => ?_
    constructor
    · rintro ⟨-, _, ⟨rfl, rfl⟩, rfl, rfl⟩
      exact ⟨.not, rfl⟩
    · rintro ⟨h, rfl⟩
      obtain ⟨h1, h2⟩ := unTy_not h rfl
      exact ⟨(), _, ⟨h1, rfl⟩, h2, rfl⟩
  · rw [if_neg (by decide), if_pos rfl]
    have key : ∀ t, UnTy "MINUS" a t ↔ (isNumeric a || isGeo a) = true ∧ t = a := by
      intro t
      constructor
      · intro h
        exact unTy_minus h rfl
      · rintro ⟨h, rfl⟩
        rw [Bool.or_eq_true] at h
        rcases h with h | h
        · exact .num h
        · obtain ⟨g, rfl⟩ := geo_cases h
          exact .geo
    by_cases h3 : (isNumeric a || isGeo a) = true
    · rw [if_pos h3]
      exact (Tr.pure _).iff fun t Γ' => by simp [key, h3]
    · rw [if_neg h3]
      exact (Tr.errIf_bind (P := fun _ _ => True) (fun _ => Mono.pure _) (fun h => by simp [na] at h)).iff
        fun t Γ' => by simp [key, h3, na]

theorem tr_elemStep (t u : Ty) : Tr Γ (elemStep t u) (fun v Γ' => ElemTy t u v ∧ Γ' = Γ) := by
  unfold elemStep
  by_cases h : accepts t u = true
  · rw [if_pos h]
    refine (Tr.pure _).iff fun v Γ' => ?_
    constructor
    · rintro ⟨rfl, rfl⟩; exact ⟨.fits h, rfl⟩
    · rintro ⟨hv, rfl⟩
      cases hv with
      | fits _ => exact ⟨rfl, rfl⟩
      | widen h' _ => simp [h] at h'
  · rw [if_neg h]
    cases hc : commonType t u with
    | none =>
      refine (Tr.err_bind (fun _ => Mono.pure _)).iff fun v Γ' => ⟨False.elim, ?_⟩
      rintro ⟨hv, -⟩
      cases hv with
      | fits h' => exact h h'
      | widen _ h' => simp [hc] at h'
    | some c =>
      refine (Tr.pure _).iff fun v Γ' => ?_
      constructor
      · rintro ⟨rfl, rfl⟩; exact ⟨.widen (by simpa using h) hc, rfl⟩
      · rintro ⟨hv, rfl⟩
        cases hv with
        | fits h' => exact absurd h' h
        | widen _ h' =>
          rw [hc] at h'
          injection h' with h'
          exact ⟨h'.symm, rfl⟩

theorem tr_condTy {a b : Ty} (ha : clean a = true) (hb : clean b = true) :
    Tr Γ (condTy a b) (fun v Γ' => CondTy a b v ∧ Γ' = Γ) := by
  unfold condTy
  rw [if_pos ⟨clean_ne ha, clean_ne hb⟩]
  cases hc : commonType a b with
  | none =>
    have hab : a ≠ b := by
      rintro rfl
      simp [commonType, Verif.Types.C25_reflexive] at hc
    refine (Tr.errIf_bind (P := fun _ _ => True) (fun _ => Mono.pure _) (fun h => by simp [hab] at h)).iff fun v Γ' => ?_
    constructor
    · rintro ⟨h, -⟩; simp [hab] at h
    · rintro ⟨hv, -⟩
      cases hv with
      | common h => simp [hc] at h
  | some c =>
    refine (Tr.pure _).iff fun v Γ' => ?_
    constructor
    · rintro ⟨rfl, rfl⟩; exact ⟨.common hc, rfl⟩
    · rintro ⟨hv, rfl⟩
      cases hv with
      | common h =>
        rw [hc] at h
        injection h with h
        exact ⟨h.symm, rfl⟩

theorem tr_ifTy (x y : Option Ty) : Tr Γ (ifTy x y) (fun v Γ' => IfTy x y v ∧ Γ' = Γ) := by
  unfold ifTy
  cases x with
  | none =>
    refine (Tr.pure _).iff fun v Γ' => ?_
    constructor
    · rintro ⟨rfl, rfl⟩; exact ⟨.noThen, rfl⟩
    · rintro ⟨hv, rfl⟩; cases hv; exact ⟨rfl, rfl⟩
  | some x =>
    cases y with
    | none =>
      refine (Tr.pure _).iff fun v Γ' => ?_
      constructor
      · rintro ⟨rfl, rfl⟩; exact ⟨.noElse, rfl⟩
      · rintro ⟨hv, rfl⟩; cases hv; exact ⟨rfl, rfl⟩
    | some y =>
      have key : ∀ v, IfTy (some x) (some y) v ↔ v = (commonType x y).getD x := by
        intro v
        constructor
        · intro h; cases h; rfl
        · rintro rfl; exact .both
      dsimp only
      cases hc : commonType x y with
      | some c => exact (Tr.pure _).iff fun v Γ' => by simp [key, hc]
      | none =>
        have hw : Tr Γ (if x ≠ .error ∧ y ≠ .error then warn "W230" else pure ()) (fun _ Γ' => Γ' = Γ) := by
          split
          · exact Tr.warn _ _
          · exact (Tr.pure ()).iff fun _ _ => by simp
        refine (Tr.bind hw (fun _ => Mono.pure _) (fun _ _ _ => Tr.pure _)).iff fun v Γ' => ?_
        simp only [key, hc, Option.getD_none]
        constructor
        · rintro ⟨-, _, rfl, rfl, rfl⟩; exact ⟨rfl, rfl⟩
        · rintro ⟨rfl, rfl⟩; exact ⟨(), _, rfl, rfl, rfl⟩

theorem tr_patTy (p : Pat) (t : Ty) : Tr Γ (patTy p t) (fun _ Γ' => Γ' = Γ) := by
  unfold patTy
  split
  · split
    · exact (Tr.pure ()).iff fun _ _ => by simp
    · exact Tr.warn _ _
  · exact (Tr.pure ()).iff fun _ _ => by simp

theorem tr_identTy (R : Option Parser.Ty) (n : Name) :
    Tr Γ (identTy n) (fun t Γ' => HasTy R Γ (.ident n) t Γ') := by
  intro s h0 hs t Γ'
  unfold identTy
  rw [hs]
  cases hl : lookup Γ n with
  | some y =>
    dsimp only
    constructor
    · rintro ⟨s', h, -, rfl⟩
      injection h with h
      injection h with h1 h2
      subst h1 h2
      subst hs
      exact .var hl
    · intro h
      cases h with
      | var h =>
        rw [hl] at h
        injection h with h
        exact ⟨s, by rw [h], h0, hs⟩
      | global h _ => simp [hl] at h
  | none =>
    dsimp only
    by_cases hg : ((resolveName n).isSome || (lookupBuiltin n).isSome) = true
    · rw [if_pos hg]
      constructor
      · rintro ⟨s', h, -, rfl⟩
        injection h with h
        injection h with h1 h2
        subst h1 h2
        subst hs
        exact .global hl (by simpa using hg)
      · intro h
        cases h with
        | var h => simp [hl] at h
        | global h _ => exact ⟨s, rfl, h0, hs⟩
    · rw [if_neg hg]
      refine ((Tr.err_bind (Γ := Γ) (fun _ => Mono.pure _)) s h0 hs t Γ').trans ⟨False.elim, ?_⟩
      intro h
      cases h with
      | var h => simp [hl] at h
      | global _ h => simp at hg; simp [hg] at h

theorem tr_argOk {p a : Ty} (ha : clean a = true) (c : String) :
    Tr Γ (argOk p a c) (fun _ Γ' => accepts p a = true ∧ Γ' = Γ) := by
  refine (Tr.errIf _ _ _).iff fun _ _ => ?_
  have na := clean_ne ha
  by_cases hp : p = .unknown
  · subst hp; simp [accepts]
  · simp [na, hp]

theorem tr_declare (hg : Γ ≠ []) (n : Name) (ty : Option Parser.Ty) (t : Ty) :
    Tr Γ (declare n ty t) (fun _ Γ' => ∃ u, DeclTy ty t u ∧ topFree Γ n ∧ Γ' = setTop Γ n ⟨.var, u⟩) := by
  unfold declare
  cases ty with
  | none =>
    refine (Tr.defineOr hg n .var t "E211").iff fun _ Γ' => ?_
    constructor
    · intro h; exact ⟨t, .infer, h⟩
    · rintro ⟨u, hd, h⟩; cases hd; exact h
  | some a =>
    refine (Tr.val (fun Γ => tr_resolve Γ a) (fun _ => Mono.bind (Mono.errIf _ _ _) fun _ => Mono.defineOr _ _ _ _)
      (fun d hd => Tr.errIf_bind (fun _ => Mono.defineOr _ _ _ _) fun _ => Tr.defineOr hg n .var d "E211")).iff
      fun _ Γ' => ?_
    constructor
    · rintro ⟨d, hd, ha, h⟩; exact ⟨d, .annot hd (by simpa using ha), h⟩
    · rintro ⟨u, hd, h⟩
      cases hd with
      | annot hd ha => exact ⟨u, hd, by simp [ha], h⟩

theorem tr_defineAll : ∀ (ps : List Name) {Γ : List Frame}, Good Γ → Tr Γ (defineAll ps)
    (fun _ Γ' => Γ' = ps.foldl (fun Γ p => bindFree Γ p .param .unknown) Γ)
  | [], Γ, g => (Tr.pure ()).iff fun _ _ => by simp
  | p :: ps, Γ, g => by
    unfold defineAll
    refine (Tr.bind (Q := fun _ Γ1 _ Γ' => Γ' = ps.foldl (fun Γ p => bindFree Γ p .param .unknown) Γ1)
      (Tr.define g.1 p .param .unknown) (fun _ => Mono.defineAll ps) (fun _ Γ1 h => by
      obtain ⟨-, rfl⟩ := h
      exact tr_defineAll ps (g.bindFree p (symOk_param (t := .unknown) rfl)))).iff fun _ Γ' => ?_
    constructor
    · rintro ⟨b, _, ⟨hb, rfl⟩, rfl⟩; rfl
    · rintro rfl
      by_cases ht : topFree Γ p
      · exact ⟨true, _, ⟨by simp [ht], rfl⟩, rfl⟩
      · exact ⟨false, _, ⟨by simp [ht], rfl⟩, rfl⟩

end Verif.Checker
