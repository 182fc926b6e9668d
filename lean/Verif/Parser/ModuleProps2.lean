import Verif.Parser.ModuleProps

/-!
# Decorators, `use` and native functions (C147 - C151)
-/

namespace Verif.Parser

open Verif.Lexer Verif.Dict

/-! ### C147: only `ParserError` -/

/-- a text that makes `parse_module` raise a `TypeError`, for every key and every string: `@meta(key = -"text")` -/
theorem C147_type_error (k n : Tok) (s : List Char) (hk : k.kind = "IDENTIFIER") (hn : n.kind = "STRING_LITERAL")
    (hv : n.val = .text s) :
    parseModule [tk "AT", ⟨"IDENTIFIER", .text "meta".toList, []⟩, tk "LPAREN", k, tk "ASSIGN", tk "MINUS", n, tk "RPAREN",
      tk "NEWLINE", tk "EOF"] = .error .typeError := by
  obtain ⟨kk, kv, kl⟩ := k
  obtain ⟨nk, nv, nl⟩ := n
  dsimp only at hk hn hv
  subst hk hn hv
  rfl

/-- literals below a minus sign, in a value as `@meta` and `@ui` read it -/
inductive NegText : Expr → Prop
  | here {k : String} {v : TVal} : (∀ n, v ≠ .int n) → (∀ l, v ≠ .float l) → (∀ b, v ≠ .bool b) →
      NegText (.un "MINUS" (.lit k v))
  | list {es : List Expr} {e : Expr} : e ∈ es → NegText e → NegText (.list es)
  | dict {es : List (Name × Expr)} {k : Name} {e : Expr} : (k, e) ∈ es → NegText e → NegText (.dict es)

theorem mbind_err {α β : Type} {x : Except MErr α} {f : α → Except MErr β} {e : MErr} (h : (x >>= f) = .error e) :
    x = .error e ∨ ∃ a, x = .ok a ∧ f a = .error e := by
  cases x with
  | error e' => left; simpa [bind, Except.bind] using h
  | ok a => right; exact ⟨a, rfl, h⟩

theorem mok_bind {α β : Type} (a : α) (f : α → Except MErr β) : ((Except.ok a : Except MErr α) >>= f) = f a := rfl

mutual
/-- **C147.** The value of an `@meta` or `@ui` key can be read, unless a string stands under a minus sign in it. -/
theorem C147_hint_partial : ∀ e : Expr, ¬ NegText e → ∃ h, hint e = .ok h
  | .lit _ v, _ => ⟨_, by rw [hint]⟩
  | .un op e, h => by
    cases e with
    | lit k v =>
      rw [hint]
      split
      · rename_i ho
        subst ho
        cases v with
        | int n => exact ⟨_, rfl⟩
        | float l => exact ⟨_, rfl⟩
        | bool b => exact ⟨_, rfl⟩
        | text s => exact absurd (.here (by simp) (by simp) (by simp)) h
        | none => exact absurd (.here (by simp) (by simp) (by simp)) h
      · exact ⟨_, rfl⟩
    | _ => exact ⟨_, by rw [hint]; intro _ _ h; cases h⟩
  | .list es, h => by
    obtain ⟨l, hl⟩ := hintList_ok es fun e he hn => h (.list he hn)
    exact ⟨_, by rw [hint, hl]; rfl⟩
  | .dict es, h => by
    obtain ⟨l, hl⟩ := hintDict_ok es fun k e he hn => h (.dict he hn)
    exact ⟨_, by rw [hint, hl]; rfl⟩
  | .ident _, _ | .bin _ _ _, _ | .call _ _ _, _ | .method _ _ _ _, _ | .member _ _, _ | .index _ _, _ | .comp _ _, _
  | .range _ _, _ | .lam _ _, _ | .cond _ _ _, _ | .ifE _ _ _ _, _ | .matchE _ _, _ => ⟨_, by rw [hint] <;> (intros; simp_all)⟩
theorem hintList_ok : ∀ es : List Expr, (∀ e ∈ es, ¬ NegText e) → ∃ l, hintList es = .ok l
  | [], _ => ⟨_, by rw [hintList]⟩
  | e :: es, h => by
    obtain ⟨a, ha⟩ := C147_hint_partial e (h e (by simp))
    obtain ⟨b, hb⟩ := hintList_ok es fun x hx => h x (by simp [hx])
    exact ⟨_, by rw [hintList, ha, hb]; rfl⟩
theorem hintDict_ok : ∀ es : List (Name × Expr), (∀ k e, (k, e) ∈ es → ¬ NegText e) → ∃ l, hintDict es = .ok l
  | [], _ => ⟨_, by rw [hintDict]⟩
  | (k, e) :: es, h => by
    obtain ⟨a, ha⟩ := C147_hint_partial e (h k e (by simp))
    obtain ⟨b, hb⟩ := hintDict_ok es fun k' x hx => h k' x (by simp [hx])
    exact ⟨_, by rw [hintDict, ha, hb]; rfl⟩
end

/-! ### C148: what becomes of decorators -/

/-- a `def` keeps all its decorators and the merged `@meta` -/
theorem C148_def_keeps_decorators_partial (ds : List DecoItem) (s r : List Tok) (f : Fn) (h : decl ds s = .ok (.fn f, r))
    (hc : f.command = false) : f.decos = plainDecos ds ∧ f.md = mergedMeta ds := by
  unfold decl at h
  split at h
  · obtain ⟨⟨b, s1⟩, -, h⟩ := mbind_ok.1 h
    cases mpure_ok.1 h
  split at h
  · split at h
    · obtain ⟨⟨b, s1⟩, -, h⟩ := mbind_ok.1 h
      cases mpure_ok.1 h
    · obtain ⟨⟨b, s1⟩, h1, h⟩ := mbind_ok.1 h
      cases mpure_ok.1 h
      unfold fnDef at h1
      obtain ⟨⟨n, s2⟩, -, h1⟩ := mbind_ok.1 h1
      obtain ⟨⟨ps, s3⟩, -, h1⟩ := mbind_ok.1 h1
      obtain ⟨⟨rt, s4⟩, -, h1⟩ := mbind_ok.1 h1
      obtain ⟨⟨x, s5⟩, -, h1⟩ := mbind_ok.1 h1
      obtain ⟨⟨bl, s6⟩, -, h1⟩ := mbind_ok.1 h1
      cases mpure_ok.1 h1
      exact ⟨rfl, rfl⟩
  split at h
  · obtain ⟨⟨b, s1⟩, h1, h⟩ := mbind_ok.1 h
    cases mpure_ok.1 h
    unfold commandDef at h1
    obtain ⟨⟨n, s2⟩, -, h1⟩ := mbind_ok.1 h1
    obtain ⟨⟨ps, s3⟩, -, h1⟩ := mbind_ok.1 h1
    obtain ⟨⟨rt, s4⟩, -, h1⟩ := mbind_ok.1 h1
    obtain ⟨⟨x, s5⟩, -, h1⟩ := mbind_ok.1 h1
    obtain ⟨⟨bl, s6⟩, -, h1⟩ := mbind_ok.1 h1
    cases mpure_ok.1 h1
    cases hc
  · cases h

/-- a `command` loses every decorator but `@meta` -/
theorem C148_command_drops_decorators (ds : List DecoItem) (s r : List Tok) (f : Fn) (h : decl ds s = .ok (.fn f, r))
    (hc : f.command = true) : f.decos = [] ∧ f.md = mergedMeta ds := by
  unfold decl at h
  split at h
  · obtain ⟨⟨b, s1⟩, -, h⟩ := mbind_ok.1 h
    cases mpure_ok.1 h
  split at h
  · split at h
    · obtain ⟨⟨b, s1⟩, -, h⟩ := mbind_ok.1 h
      cases mpure_ok.1 h
    · obtain ⟨⟨b, s1⟩, h1, h⟩ := mbind_ok.1 h
      cases mpure_ok.1 h
      unfold fnDef at h1
      obtain ⟨⟨n, s2⟩, -, h1⟩ := mbind_ok.1 h1
      obtain ⟨⟨ps, s3⟩, -, h1⟩ := mbind_ok.1 h1
      obtain ⟨⟨rt, s4⟩, -, h1⟩ := mbind_ok.1 h1
      obtain ⟨⟨x, s5⟩, -, h1⟩ := mbind_ok.1 h1
      obtain ⟨⟨bl, s6⟩, -, h1⟩ := mbind_ok.1 h1
      cases mpure_ok.1 h1
      cases hc
  split at h
  · obtain ⟨⟨b, s1⟩, h1, h⟩ := mbind_ok.1 h
    cases mpure_ok.1 h
    unfold commandDef at h1
    obtain ⟨⟨n, s2⟩, -, h1⟩ := mbind_ok.1 h1
    obtain ⟨⟨ps, s3⟩, -, h1⟩ := mbind_ok.1 h1
    obtain ⟨⟨rt, s4⟩, -, h1⟩ := mbind_ok.1 h1
    obtain ⟨⟨x, s5⟩, -, h1⟩ := mbind_ok.1 h1
    obtain ⟨⟨bl, s6⟩, -, h1⟩ := mbind_ok.1 h1
    cases mpure_ok.1 h1
    exact ⟨rfl, rfl⟩
  · cases h

/-- decorators at the end of the text belong to nothing and are dropped without an error, for every decorator name -/
theorem C148_dangling_decorator (n : Tok) (hn : n.kind = "IDENTIFIER") (hm : n.val ≠ .text "meta".toList) :
    parseModule [tk "AT", n, tk "NEWLINE", tk "EOF"] = .ok (mkMod none [] []) := by
  obtain ⟨k, v, l⟩ := n
  dsimp only at hn hm
  subst hn
  have h1 : decos 5 [tk "AT", ⟨"IDENTIFIER", v, l⟩, tk "NEWLINE", tk "EOF"] =
      .ok ([.deco ⟨v, []⟩], [tk "EOF"]) := by
    have : val (adv [tk "AT", (⟨"IDENTIFIER", v, l⟩ : Tok), tk "NEWLINE", tk "EOF"]) = v := rfl
    rw [decos, if_pos (by rfl), this, if_neg hm]
    rfl
  have h2 : decls 5 [tk "AT", ⟨"IDENTIFIER", v, l⟩, tk "NEWLINE", tk "EOF"] = .ok [] := by
    rw [decls, if_neg (by show ¬ ("AT" = "EOF"); decide)]
    have h3 : skipNl [tk "AT", ⟨"IDENTIFIER", v, l⟩, tk "NEWLINE", tk "EOF"] =
      [tk "AT", ⟨"IDENTIFIER", v, l⟩, tk "NEWLINE", tk "EOF"] := rfl
    rw [h3]
    show (decos 5 _ >>= _) = _
    rw [h1]
    rfl
  have h4 : optModule (skipNl [tk "AT", ⟨"IDENTIFIER", v, l⟩, tk "NEWLINE", tk "EOF"]) =
    .ok (none, [tk "AT", ⟨"IDENTIFIER", v, l⟩, tk "NEWLINE", tk "EOF"]) := rfl
  have h5 : uses 5 (skipNl [tk "AT", ⟨"IDENTIFIER", v, l⟩, tk "NEWLINE", tk "EOF"]) =
    .ok ([], [tk "AT", ⟨"IDENTIFIER", v, l⟩, tk "NEWLINE", tk "EOF"]) := rfl
  unfold parseModule
  rw [h4, mok_bind]
  dsimp only
  change (uses 5 (skipNl [tk "AT", ⟨"IDENTIFIER", v, l⟩, tk "NEWLINE", tk "EOF"]) >>= _) = _
  rw [h5, mok_bind]
  change (decls 5 _ >>= _) = _
  rw [h2]
  rfl

/-! ### C149: `@meta` decorators are merged -/

theorem foldl_dset_get {κ V : Type} [DecidableEq κ] (l : List (κ × V)) (d : List (κ × V)) (k : κ) :
    dget (l.foldl (fun d e => dset d e.1 e.2) d) k =
      match l.reverse.find? (fun e => e.1 = k) with
      | some e => some e.2
      | none => dget d k := by
  induction l generalizing d with
  | nil => rfl
  | cons e l ih =>
    rw [List.foldl_cons, ih, List.reverse_cons, List.find?_append]
    cases l.reverse.find? (fun e => e.1 = k) with
    | some x => rfl
    | none =>
      by_cases h : e.1 = k
      · subst h; simp [dget_dset_same]
      · simp [h, dget_dset_other _ _ _ _ (fun h' => h h'.symm)]

/-- **C149.** For several `@meta` decorators of one declaration the last one that has a key decides its value, and
within one decorator the last occurrence: the merged metadata of a declaration maps a key to the last value given. -/
theorem C149_last_meta_wins (l : List DecoItem) (k : List Name) :
    dget (mergedMeta l) k =
      ((l.flatMap DecoItem.entries).reverse.find? (fun e => e.1 = k)).map (·.2) := by
  have key : ∀ (l : List DecoItem) d, l.foldl (fun d x => x.entries.foldl (fun d e => dset d e.1 e.2) d) d =
      (l.flatMap DecoItem.entries).foldl (fun d e => dset d e.1 e.2) d := by
    intro l
    induction l with
    | nil => exact fun d => rfl
    | cons x l ih =>
      intro d
      rw [List.foldl_cons, ih, List.flatMap_cons, List.foldl_append]
  unfold mergedMeta
  rw [key, foldl_dset_get]
  cases (l.flatMap DecoItem.entries).reverse.find? (fun e => e.1 = k) with
  | none => rfl
  | some e => rfl

/-- within one decorator -/
theorem C149_last_key_wins {κ : Type} [DecidableEq κ] (l : List (Entry κ)) (k : κ) :
    dget (toDict l) k = (l.reverse.find? (fun e => e.1 = k)).map (·.2) := by
  unfold toDict
  rw [foldl_dset_get]
  cases l.reverse.find? (fun e => e.1 = k) with
  | none => rfl
  | some e => rfl

/-- two decorators with the same key -/
example : dget (mergedMeta [.md [([.int 1], .lit (.int 5))], .deco ⟨.none, []⟩, .md [([.int 1], .lit (.int 6))]]) [.int 1] =
    some (.lit (.int 6)) := rfl

/-! ### C150: native functions -/

theorem codeDedent_first {w r : List Tok} {d : Tok} (hw : ∀ t ∈ w, t.kind ≠ "DEDENT" ∧ t.kind ≠ "EOF")
    (hd : d.kind = "DEDENT") : codeDedent (w ++ d :: r) = (w, d :: r) := by
  induction w with
  | nil => simp [codeDedent, hd]
  | cons t w ih =>
    have h := hw t (by simp)
    rw [List.cons_append, codeDedent, if_neg (by simp [h]), ih fun u hu => hw u (by simp [hu])]

/-- **C150.** The code of a native function is the text up to the first place where the indentation decreases, at
whatever depth: nested blocks are cut off. -/
theorem C150_native_cut (nl i d : Tok) (w r : List Tok) (hnl : nl.kind = "NEWLINE") (hi : i.kind = "INDENT")
    (hw : ∀ t ∈ w, t.kind ≠ "DEDENT" ∧ t.kind ≠ "EOF") (hd : d.kind = "DEDENT") :
    nativeBody (nl :: i :: w ++ d :: r) = .ok (w, r) := by
  unfold nativeBody
  simp only [List.cons_append, cur_c, hnl, if_true, adv_c hnl (by decide), hi, adv_c hi (by decide),
    codeDedent_first hw hd]
  unfold eat
  rw [consume_c hd (by decide)]
  rfl

/-- a body without nested blocks is read in full -/
theorem C150_flat_body_partial (nl i d : Tok) (w r : List Tok) (hnl : nl.kind = "NEWLINE") (hi : i.kind = "INDENT")
    (hw : ∀ t ∈ w, t.kind ≠ "INDENT" ∧ t.kind ≠ "DEDENT" ∧ t.kind ≠ "EOF") (hd : d.kind = "DEDENT") :
    nativeBody (nl :: i :: w ++ d :: r) = .ok (w, r) :=
  C150_native_cut nl i d w r hnl hi (fun t ht => ⟨(hw t ht).2.1, (hw t ht).2.2⟩) hd

/-- `@native def f() -> int:` with the body `if x:` / `return 1` / `return 2`: refused -/
theorem C150_nested_refused :
    parseModule [tk "AT", nm "native", tk "NEWLINE", tk "DEF", nm "f", tk "LPAREN", tk "RPAREN", tk "ARROW", tk "TYPE_INT",
      tk "COLON", tk "NEWLINE", tk "INDENT", tk "IF", nm "x", tk "COLON", tk "NEWLINE", tk "INDENT", tk "RETURN", num 1,
      tk "NEWLINE", tk "DEDENT", tk "RETURN", num 2, tk "NEWLINE", tk "DEDENT", tk "EOF"] = .error .syn := by rfl

/-- with the body `return 2` it is accepted -/
example : ∃ m, parseModule [tk "AT", nm "native", tk "NEWLINE", tk "DEF", nm "f", tk "LPAREN", tk "RPAREN", tk "ARROW",
      tk "TYPE_INT", tk "COLON", tk "NEWLINE", tk "INDENT", tk "RETURN", num 2, tk "NEWLINE", tk "DEDENT", tk "EOF"] =
    .ok m ∧ m.natives.length = 1 := ⟨_, rfl, rfl⟩

/-! ### C151: `use` -/

/-- **C151.** Any token with a text, an operator for example, is accepted as a part of a module path -/
theorem C151_any_text (u p : Tok) (rest : List Tok) (l : List Char) (hu : u.kind = "USE") (hp : p.val = .text l)
    (hk : p.kind ≠ "EOF") (hr : cur rest = "NEWLINE") :
    useStmt (u :: p :: rest) = .ok (⟨false, [p.val], none⟩, adv rest) := by
  obtain ⟨nl, r, rfl, hnl, hadv, -⟩ := cur_cons hr (by decide)
  have h1 : pathTail (nl :: r) = .ok ([], nl :: r) := by
    cases r with
    | nil => rw [pathTail, if_neg (by rw [hnl]; decide)]; rfl
    | cons a r => rw [pathTail, if_neg (by rw [hnl]; decide)]; rfl
  have h2 : adv (p :: nl :: r) = nl :: r := by simp [adv, cur, hk]
  unfold useStmt
  have hc : cur (u :: p :: nl :: r) ≠ "EXPORT" := by rw [cur_c, hu]; decide
  simp only [hc, decide_false, Bool.false_eq_true, if_false]
  unfold eat
  rw [consume_c hu (by decide)]
  show (pathPart (p :: nl :: r) >>= _) = _
  have h3 : pathPart (p :: nl :: r) = .ok (p.val, nl :: r) := by
    unfold pathPart
    rw [val_c, hp, if_pos (show isText (.text l) = true from rfl), h2]; rfl
  rw [h3]
  show (pathTail (nl :: r) >>= _) = _
  rw [h1]
  show (optAlias false (nl :: r) >>= _) = _
  have h4 : optAlias false (nl :: r) = .ok (none, nl :: r) := by
    unfold optAlias
    rw [if_neg (by rw [cur_c, hnl]; decide)]; rfl
  rw [h4]
  show (mTerm (nl :: r) >>= _) = _
  have h5 : mTerm (nl :: r) = .ok r := by
    unfold mTerm terminator
    rw [cur_c, hnl, adv_c hnl (by decide)]; rfl
  rw [h5, hadv]
  rfl

/-- `use a.b.c` with names gives the path as written -/
theorem C151_path_partial (u n₀ nl : Tok) (ns : List (Tok × Tok)) (r : List Tok) (hu : u.kind = "USE")
    (h₀ : isText n₀.val = true ∧ n₀.kind ≠ "EOF") (hns : ∀ x ∈ ns, x.1.kind = "DOT" ∧ isText x.2.val = true)
    (hnl : nl.kind = "NEWLINE") :
    useStmt (u :: n₀ :: (ns.flatMap fun x => [x.1, x.2]) ++ nl :: r) =
      .ok (⟨false, n₀.val :: ns.map (·.2.val), none⟩, r) := by
  have h1 : pathTail ((ns.flatMap fun x => [x.1, x.2]) ++ nl :: r) = .ok (ns.map (·.2.val), nl :: r) := by
    induction ns with
    | nil =>
      cases r with
      | nil => show pathTail [nl] = _; rw [pathTail, if_neg (by rw [hnl]; decide)]; rfl
      | cons a r => show pathTail (nl :: a :: r) = _; rw [pathTail, if_neg (by rw [hnl]; decide)]; rfl
    | cons x ns ih =>
      have hx := hns x (by simp)
      have := ih fun y hy => hns y (by simp [hy])
      show pathTail (x.1 :: x.2 :: ((ns.flatMap fun x => [x.1, x.2]) ++ nl :: r)) = _
      rw [pathTail, if_pos hx.1, if_pos hx.2, this]
      rfl
  generalize hq : (ns.flatMap fun x => [x.1, x.2]) ++ nl :: r = q at h1
  have hcons : u :: n₀ :: (ns.flatMap fun x => [x.1, x.2]) ++ nl :: r = u :: n₀ :: q := by rw [← hq]; rfl
  rw [hcons]
  have h2 : adv (n₀ :: q) = q := by simp [adv, cur, h₀.2]
  unfold useStmt
  have hc : cur (u :: n₀ :: q) ≠ "EXPORT" := by rw [cur_c, hu]; decide
  simp only [hc, decide_false, Bool.false_eq_true, if_false]
  unfold eat
  rw [consume_c hu (by decide)]
  show (pathPart (n₀ :: q) >>= _) = _
  have h3 : pathPart (n₀ :: q) = .ok (n₀.val, q) := by
    unfold pathPart
    rw [val_c, if_pos h₀.1, h2]; rfl
  rw [h3]
  show (pathTail q >>= _) = _
  rw [h1]
  show (optAlias false (nl :: r) >>= _) = _
  have h4 : optAlias false (nl :: r) = .ok (none, nl :: r) := by
    unfold optAlias
    rw [if_neg (by rw [cur_c, hnl]; decide)]; rfl
  rw [h4]
  show (mTerm (nl :: r) >>= _) = _
  have h5 : mTerm (nl :: r) = .ok r := by
    unfold mTerm terminator
    rw [cur_c, hnl, adv_c hnl (by decide)]; rfl
  rw [h5]
  rfl

/-- `use +` -/
example : ∃ x, useStmt [tk "USE", ⟨"PLUS", .text "+".toList, []⟩, tk "NEWLINE"] = .ok (x, []) := ⟨_, rfl⟩

end Verif.Parser
