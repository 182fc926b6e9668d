import Verif.Parser.Complete2

/-! Completeness, continued: statements, and the induction over the grammar. -/

namespace Verif.Parser

open Verif.Lexer Filter

/-- the end of a simple statement: the parser accepts it, and it can follow any expression -/
theorem term_c {b : Stop} {we rest : List Tok} (h : Term b we) (hs : stopOK b rest) :
    terminator (we ++ rest) = .ok rest ∧ termTok (cur (we ++ rest)) = true := by
  cases h with
  | newline h =>
    rename_i t
    show terminator (t :: rest) = _ ∧ termTok t.kind = true
    unfold terminator
    rw [cur_c, if_neg (by rw [h]; decide), if_pos h]
    exact ⟨by show Except.ok (adv (t :: rest)) = _; rw [adv_c h (by decide)], by rw [h]; rfl⟩
  | semi h =>
    rename_i t
    show terminator (t :: rest) = _ ∧ termTok t.kind = true
    unfold terminator
    rw [cur_c, if_neg (by rw [h]; decide), if_neg (by rw [h]; decide), if_neg (by rw [h]; decide),
      if_neg (by rw [h]; decide), if_pos h]
    exact ⟨by show Except.ok (adv (t :: rest)) = _; rw [adv_c h (by decide)], by rw [h]; rfl⟩
  | none =>
    rw [List.nil_append]
    unfold terminator
    rcases hs with h | h | h <;> rw [h] <;> exact ⟨rfl, rfl⟩

theorem term_sep {k : String} (h : termTok k = true) : sep k = true ∧ k ≠ "COMMA" ∧ k ≠ "ASSIGN" ∧ k ≠ "COLON" ∧
    k ≠ "AS" ∧ k ≠ "IDENTIFIER" ∧ k ≠ "LBRACKET" ∧ k ≠ "LT" ∧ k ≠ "QUESTION" := by
  simp only [termTok, Bool.or_eq_true, decide_eq_true_eq] at h
  rcases h with ((((h | h) | h) | h) | h) | h <;> (rw [h]; decide)

theorem term_not_with {b : Stop} {we rest : List Tok} (h : Term b we) (hs : stopOK b rest) :
    cur (we ++ rest) ≠ "WITH" := by
  cases h with
  | newline h => show Tok.kind _ ≠ _; rw [h]; decide
  | semi h => show Tok.kind _ ≠ _; rw [h]; decide
  | none => rw [List.nil_append]; rcases hs with h | h | h <;> rw [h] <;> decide

/-- tokens that `_parse_statement` treats in a special way -/
def stmtTok (k : String) : Bool :=
  k = "LET" || k = "REQUIRE" || k = "ASSERT" || k = "EMIT" || k = "FOR" || k = "WHILE" || k = "IF" || k = "PASS" ||
    k = "RETURN" || k = "PYTHON"

theorem stepStmt_expr {f : ∀ s, P (Val s)} {s : List Tok} (h : stmtTok (cur s) = false)
    (h1 : ¬ (cur s = "IDENTIFIER" ∧ peek1 s = "COLON")) (h2 : ¬ (cur s = "IDENTIFIER" ∧ peek1 s = "ASSIGN")) :
    stepStmt f s = stmtExpr f s := by
  simp only [stmtTok, Bool.or_eq_false_iff, decide_eq_false_iff_not] at h
  obtain ⟨⟨⟨⟨⟨⟨⟨⟨⟨a1, a2⟩, a3⟩, a4⟩, a5⟩, a6⟩, a7⟩, a8⟩, a9⟩, a10⟩ := h
  unfold stepStmt
  rw [if_neg a1, if_neg a2, if_neg a3, if_neg a4, if_neg a5, if_neg a6, if_neg a7, if_neg a8, if_neg a9, if_neg a10,
    if_neg h1, if_neg h2]

theorem stepStmt_ident {f : ∀ s, P (Val s)} {a b : Tok} (h : a.kind = "IDENTIFIER") (r : List Tok) :
    stepStmt f (a :: b :: r) = if b.kind = "COLON" then stmtVarDecl f (a :: b :: r)
      else if b.kind = "ASSIGN" then stmtSimple f (a :: b :: r) else stmtExpr f (a :: b :: r) := by
  have hc : cur (a :: b :: r) = "IDENTIFIER" := h
  unfold stepStmt
  rw [hc]
  rw [if_neg (by decide), if_neg (by decide), if_neg (by decide), if_neg (by decide), if_neg (by decide),
    if_neg (by decide), if_neg (by decide), if_neg (by decide), if_neg (by decide), if_neg (by decide)]
  have hp : peek1 (a :: b :: r) = b.kind := rfl
  rw [hp]
  by_cases h1 : b.kind = "COLON"
  · rw [if_pos ⟨rfl, h1⟩, if_pos h1]
  · rw [if_neg (fun e : _ ∧ _ => h1 e.2), if_neg h1]
    by_cases h2 : b.kind = "ASSIGN"
    · rw [if_pos ⟨rfl, h2⟩, if_pos h2]
    · rw [if_neg (fun e : _ ∧ _ => h2 e.2), if_neg h2]

/-- picks the case of `_parse_statement` -/
macro "stmt_case" h:term : tactic => `(tactic|
  (show stepStmt _ (_ :: _) = _
   unfold stepStmt
   simp only [cur_c, $h:term, reduceIte, String.reduceEq]))

theorem cp_letS {e u w b we} {l i a : Tok} (hl : l.kind = "LET") (hi : i.kind = "IDENTIFIER") (ha : a.kind = "ASSIGN")
    (ih : Cp .expr e u w) (ht : Term b we) : Cp .stmt (.letS i.val none e) { stop := b } (l :: i :: a :: w ++ we) := by
  intro rest hs _
  have hq : l :: i :: a :: w ++ we ++ rest = l :: i :: a :: (w ++ (we ++ rest)) := by simp
  rw [hq]
  obtain ⟨t1, t2⟩ := term_c ht hs
  have e1 := (ih (we ++ rest) (FE.sep (term_sep t2).1)).1
  refine Ev.mk ?_
  filter_upwards [e1] with n e1
  show stepStmt _ _ = _
  unfold stepStmt
  rw [cur_c, if_pos hl]
  unfold stmtLet optType
  rw [adv_c hl (by decide), consume_c hi (by decide), ok_bind]
  dsimp only
  rw [cur_c, if_neg (by rw [ha]; decide), ok_bind']
  dsimp only
  rw [consume_c ha (by decide), ok_bind]
  dsimp only
  rw [e1, ok_bind]
  dsimp only
  rw [t1]
  rfl

theorem cp_letTy {ty v wt e u w b we} {l i k a : Tok} (hl : l.kind = "LET") (hi : i.kind = "IDENTIFIER")
    (hk : k.kind = "COLON") (iht : Cp .ty ty v wt) (ha : a.kind = "ASSIGN")
    (ih : Cp .expr e u w) (ht : Term b we) :
    Cp .stmt (.letS i.val (some ty) e) { stop := b } (l :: i :: k :: wt ++ a :: w ++ we) := by
  intro rest hs _
  have hq : l :: i :: k :: wt ++ a :: w ++ we ++ rest = l :: i :: k :: (wt ++ a :: (w ++ (we ++ rest))) := by simp
  rw [hq]
  obtain ⟨t1, t2⟩ := term_c ht hs
  have e1 := (ih (we ++ rest) (FE.sep (term_sep t2).1)).1
  have e2 := iht (a :: (w ++ (we ++ rest))) (by rw [cur_c, ha]; decide) (by rw [cur_c, ha]; decide)
  rw [tyRes_plain _ (by rw [cur_c, ha]; decide)] at e2
  refine Ev.mk ?_
  filter_upwards [e1, e2] with n e1 e2
  show stepStmt _ _ = _
  unfold stepStmt
  rw [cur_c, if_pos hl]
  unfold stmtLet optType
  rw [adv_c hl (by decide), consume_c hi (by decide), ok_bind]
  dsimp only
  rw [cur_c, if_pos hk, adv_c hk (by decide), e2, ok_bind]
  dsimp only
  rw [ok_bind']
  dsimp only
  rw [consume_c ha (by decide), ok_bind]
  dsimp only
  rw [e1, ok_bind]
  dsimp only
  rw [t1]
  rfl

theorem require_c {n : Nat} {mk : Expr → Option Expr → Stmt} {e : Expr} {w tail : List Tok} {r : Tok} {k : String}
    (hr : r.kind = k) (hk : k ≠ "EOF") {rest : List Tok} (e1 : parse n .expr (w ++ tail) = .ok (e, tail))
    (hc : cur tail ≠ "COMMA") (t1 : terminator tail = .ok rest) :
    stmtRequire (parse n) mk (r :: (w ++ tail)) = .ok (mk e none, rest) := by
  unfold stmtRequire optExpr
  rw [adv_c hr hk, e1, ok_bind]
  dsimp only
  rw [if_neg hc, ok_bind']
  dsimp only
  rw [t1]
  rfl

theorem requireMsg_c {n : Nat} {mk : Expr → Option Expr → Stmt} {e e' : Expr} {w w' tail : List Tok} {r c : Tok} {k : String}
    (hr : r.kind = k) (hk : k ≠ "EOF") {rest : List Tok} (e1 : parse n .expr (w ++ c :: (w' ++ tail)) = .ok (e, c :: (w' ++ tail)))
    (hc : c.kind = "COMMA") (e2 : parse n .expr (w' ++ tail) = .ok (e', tail)) (t1 : terminator tail = .ok rest) :
    stmtRequire (parse n) mk (r :: (w ++ c :: (w' ++ tail))) = .ok (mk e (some e'), rest) := by
  unfold stmtRequire optExpr
  rw [adv_c hr hk, e1, ok_bind]
  dsimp only
  rw [cur_c, if_pos hc, adv_c hc (by decide), e2, ok_bind]
  dsimp only
  rw [ok_bind']
  dsimp only
  rw [t1]
  rfl

theorem cp_require {e u w b we} {r : Tok} (hr : r.kind = "REQUIRE") (ih : Cp .expr e u w) (ht : Term b we) :
    Cp .stmt (.require e none) { stop := b } (r :: w ++ we) := by
  intro rest hs _
  have hq : r :: w ++ we ++ rest = r :: (w ++ (we ++ rest)) := by simp
  rw [hq]
  obtain ⟨t1, t2⟩ := term_c ht hs
  have e1 := (ih (we ++ rest) (FE.sep (term_sep t2).1)).1
  refine Ev.mk ?_
  filter_upwards [e1] with n e1
  show stepStmt _ _ = _
  unfold stepStmt
  rw [cur_c, if_neg (by rw [hr]; decide), if_pos hr]
  exact require_c hr (by decide) e1 (term_sep t2).2.1 t1

theorem cp_requireMsg {e u w e' u' w' b we} {r k : Tok} (hr : r.kind = "REQUIRE") (ih : Cp .expr e u w)
    (hk : k.kind = "COMMA") (ih' : Cp .expr e' u' w') (ht : Term b we) :
    Cp .stmt (.require e (some e')) { stop := b } (r :: w ++ k :: w' ++ we) := by
  intro rest hs _
  have hq : r :: w ++ k :: w' ++ we ++ rest = r :: (w ++ k :: (w' ++ (we ++ rest))) := by simp
  rw [hq]
  obtain ⟨t1, t2⟩ := term_c ht hs
  have e1 := (ih (k :: (w' ++ (we ++ rest))) (FE.of hk rfl)).1
  have e2 := (ih' (we ++ rest) (FE.sep (term_sep t2).1)).1
  refine Ev.mk ?_
  filter_upwards [e1, e2] with n e1 e2
  show stepStmt _ _ = _
  unfold stepStmt
  rw [cur_c, if_neg (by rw [hr]; decide), if_pos hr]
  exact requireMsg_c hr (by decide) e1 hk e2 t1

theorem cp_assert {e u w b we} {r : Tok} (hr : r.kind = "ASSERT") (ih : Cp .expr e u w) (ht : Term b we) :
    Cp .stmt (.assertS e none) { stop := b } (r :: w ++ we) := by
  intro rest hs _
  have hq : r :: w ++ we ++ rest = r :: (w ++ (we ++ rest)) := by simp
  rw [hq]
  obtain ⟨t1, t2⟩ := term_c ht hs
  have e1 := (ih (we ++ rest) (FE.sep (term_sep t2).1)).1
  refine Ev.mk ?_
  filter_upwards [e1] with n e1
  show stepStmt _ _ = _
  unfold stepStmt
  rw [cur_c, if_neg (by rw [hr]; decide), if_neg (by rw [hr]; decide), if_pos hr]
  exact require_c hr (by decide) e1 (term_sep t2).2.1 t1

theorem cp_assertMsg {e u w e' u' w' b we} {r k : Tok} (hr : r.kind = "ASSERT") (ih : Cp .expr e u w)
    (hk : k.kind = "COMMA") (ih' : Cp .expr e' u' w') (ht : Term b we) :
    Cp .stmt (.assertS e (some e')) { stop := b } (r :: w ++ k :: w' ++ we) := by
  intro rest hs _
  have hq : r :: w ++ k :: w' ++ we ++ rest = r :: (w ++ k :: (w' ++ (we ++ rest))) := by simp
  rw [hq]
  obtain ⟨t1, t2⟩ := term_c ht hs
  have e1 := (ih (k :: (w' ++ (we ++ rest))) (FE.of hk rfl)).1
  have e2 := (ih' (we ++ rest) (FE.sep (term_sep t2).1)).1
  refine Ev.mk ?_
  filter_upwards [e1, e2] with n e1 e2
  show stepStmt _ _ = _
  unfold stepStmt
  rw [cur_c, if_neg (by rw [hr]; decide), if_neg (by rw [hr]; decide), if_pos hr]
  exact requireMsg_c hr (by decide) e1 hk e2 t1

theorem cp_meta0 : Cp .emitMeta [] {} [] := by
  intro rest hr
  refine Ev.mk (Eventually.of_forall fun n => ?_)
  show stepEmitMeta (parse n) rest = _
  unfold stepEmitMeta
  rw [if_neg (term_sep hr).2.1]
  rfl

theorem cp_metaComma {k : Tok} (hk : k.kind = "COMMA") : Cp .emitMeta [] {} [k] := by
  intro rest hr
  refine Ev.mk (Eventually.of_forall fun n => ?_)
  show stepEmitMeta (parse n) (k :: rest) = _
  unfold stepEmitMeta
  rw [cur_c, if_pos hk, adv_c hk (by decide), if_neg (fun e => (term_sep hr).2.2.2.2.2.1 e.1)]
  rfl

theorem meta_cur {es u w} (h : D .emitMeta es u w) {rest : List Tok} (hr : termTok (cur rest) = true) (t : Tail) :
    FE t (w ++ rest) := by
  rcases first_lemma h with ⟨rfl, h0⟩ | ⟨a, x, rfl, h0⟩
  · exact FE.sep (term_sep hr).1
  · exact FE.of (k := "COMMA") h0 rfl

theorem cp_metaMore {e u w rest u' w'} {k i a : Tok} (hk : k.kind = "COMMA") (hi : i.kind = "IDENTIFIER")
    (ha : a.kind = "ASSIGN") (ih : Cp .expr e u w) (hd : D .emitMeta rest u' w') (ih' : Cp .emitMeta rest u' w') :
    Cp .emitMeta ((some i.val, e) :: rest) {} (k :: i :: a :: w ++ w') := by
  intro r hr
  have hq : k :: i :: a :: w ++ w' ++ r = k :: i :: a :: (w ++ (w' ++ r)) := by simp
  rw [hq]
  have e1 := (ih (w' ++ r) (meta_cur hd hr _)).1
  have e2 := ih' r hr
  refine Ev.mk ?_
  filter_upwards [e1, e2] with n e1 e2
  show stepEmitMeta (parse n) _ = _
  unfold stepEmitMeta
  rw [cur_c, if_pos hk, adv_c hk (by decide), if_pos ⟨hi, ha⟩, adv_c hi (by decide), adv_c ha (by decide), e1, ok_bind]
  dsimp only
  rw [e2, ok_bind]
  rfl

theorem cp_emit {e u w md u' w' b we} {r : Tok} (hr : r.kind = "EMIT") (ih : Cp .expr e u w) (hd : D .emitMeta md u' w')
    (ih' : Cp .emitMeta md u' w') (ht : Term b we) : Cp .stmt (.emit e (named md)) { stop := b } (r :: w ++ w' ++ we) := by
  intro rest hs _
  have hq : r :: w ++ w' ++ we ++ rest = r :: (w ++ (w' ++ (we ++ rest))) := by simp
  rw [hq]
  obtain ⟨t1, t2⟩ := term_c ht hs
  have e1 := (ih _ (meta_cur hd t2 _)).1
  have e2 := ih' _ t2
  refine Ev.mk ?_
  filter_upwards [e1, e2] with n e1 e2
  show stepStmt _ _ = _
  unfold stepStmt
  rw [cur_c, if_neg (by rw [hr]; decide), if_neg (by rw [hr]; decide), if_neg (by rw [hr]; decide), if_pos hr]
  unfold stmtEmit optWith
  rw [adv_c hr (by decide), e1, ok_bind]
  dsimp only
  rw [e2, ok_bind]
  dsimp only
  rw [if_neg (term_not_with ht hs), ok_bind']
  dsimp only
  rw [t1]
  rfl

theorem cp_emitWith {e u w md u' w' es u'' w'' b we} {r h o : Tok} (hr : r.kind = "EMIT") (ih : Cp .expr e u w)
    (hd : D .emitMeta md u' w') (ih' : Cp .emitMeta md u' w') (hh : h.kind = "WITH") (ho : o.kind ≠ "EOF")
    (ih'' : Cp (.seq .entries) es u'' w'') (ht : Term b we) :
    Cp .stmt (.emit e (updateDict (named md) (named es))) { stop := b } (r :: w ++ w' ++ h :: o :: w'' ++ we) := by
  intro rest hs _
  have hq : r :: w ++ w' ++ h :: o :: w'' ++ we ++ rest = r :: (w ++ (w' ++ (h :: o :: (w'' ++ (we ++ rest))))) := by simp
  rw [hq]
  obtain ⟨t1, t2⟩ := term_c ht hs
  have hw : termTok (cur (h :: o :: (w'' ++ (we ++ rest)))) = true := by rw [cur_c, hh]; rfl
  have e1 := (ih _ (meta_cur hd hw _)).1
  have e2 := ih' _ hw
  have e3 := ih'' (we ++ rest)
  refine Ev.mk ?_
  filter_upwards [e1, e2, e3] with n e1 e2 e3
  show stepStmt _ _ = _
  unfold stepStmt
  rw [cur_c, if_neg (by rw [hr]; decide), if_neg (by rw [hr]; decide), if_neg (by rw [hr]; decide), if_pos hr]
  unfold stmtEmit optWith
  rw [adv_c hr (by decide), e1, ok_bind]
  dsimp only
  rw [e2, ok_bind]
  dsimp only
  rw [cur_c, if_pos hh, adv_c hh (by decide), adv_c rfl ho, e3, ok_bind]
  dsimp only
  rw [t1]
  rfl

theorem cp_forS {e u w b u' w'} {o v i k : Tok} (ho : o.kind = "FOR") (hv : v.kind = "IDENTIFIER") (hi : i.kind = "IN")
    (ih : Cp .expr e u w) (hk : k.kind = "COLON") (ih' : Cp .block b u' w') :
    Cp .stmt (.forS v.val e b) {} (o :: v :: i :: w ++ k :: w') := by
  intro rest _ _
  have hq : o :: v :: i :: w ++ k :: w' ++ rest = o :: v :: i :: (w ++ k :: (w' ++ rest)) := by simp
  rw [hq]
  have e1 := (ih (k :: (w' ++ rest)) (FE.of hk rfl)).1
  have e2 := ih' rest
  refine Ev.mk ?_
  filter_upwards [e1, e2] with n e1 e2
  show stepStmt _ _ = _
  unfold stepStmt
  rw [cur_c, if_neg (by rw [ho]; decide), if_neg (by rw [ho]; decide), if_neg (by rw [ho]; decide),
    if_neg (by rw [ho]; decide), if_pos ho]
  unfold stmtFor
  rw [adv_c ho (by decide), consume_c hv (by decide), ok_bind]
  dsimp only
  rw [consume_c hi (by decide), ok_bind]
  dsimp only
  rw [e1, ok_bind]
  dsimp only
  rw [consume_c hk (by decide), ok_bind]
  dsimp only
  rw [e2, ok_bind]
  rfl

theorem cp_ifS {c b el els t w} {i : Tok} (hi : i.kind = "IF") (ih : Cp .ifParts (c, b, el, els) t w) :
    Cp .stmt (.ifS c b el els) t (i :: w) := by
  intro rest _ hn
  have e1 := ih rest hn
  refine Ev.mk ?_
  filter_upwards [e1] with n e1
  show stepStmt _ (i :: (w ++ rest)) = _
  unfold stepStmt
  rw [cur_c, if_neg (by rw [hi]; decide), if_neg (by rw [hi]; decide), if_neg (by rw [hi]; decide),
    if_neg (by rw [hi]; decide), if_neg (by rw [hi]; decide), if_neg (by rw [hi]; decide), if_pos hi,
    adv_c hi (by decide), e1, ok_bind]
  rfl

theorem cp_pass {p : Tok} {b we} (hp : p.kind = "PASS") (ht : Term b we) : Cp .stmt .pass { stop := b } (p :: we) := by
  intro rest hs _
  obtain ⟨t1, -⟩ := term_c ht hs
  refine Ev.mk (Eventually.of_forall fun n => ?_)
  show stepStmt _ (p :: (we ++ rest)) = _
  unfold stepStmt
  rw [cur_c, if_neg (by rw [hp]; decide), if_neg (by rw [hp]; decide), if_neg (by rw [hp]; decide),
    if_neg (by rw [hp]; decide), if_neg (by rw [hp]; decide), if_neg (by rw [hp]; decide), if_neg (by rw [hp]; decide),
    if_pos hp, adv_c hp (by decide), t1]
  rfl

theorem stepStmt_return {f : ∀ s, P (Val s)} {r : Tok} (hr : r.kind = "RETURN") (s : List Tok) :
    stepStmt f (r :: s) = stmtReturn f (r :: s) := by
  unfold stepStmt
  rw [cur_c, if_neg (by rw [hr]; decide), if_neg (by rw [hr]; decide), if_neg (by rw [hr]; decide),
    if_neg (by rw [hr]; decide), if_neg (by rw [hr]; decide), if_neg (by rw [hr]; decide), if_neg (by rw [hr]; decide),
    if_neg (by rw [hr]; decide), if_pos hr]

theorem cp_ret0 {r m : Tok} (hr : r.kind = "RETURN") (hm : m.kind = "NEWLINE") : Cp .stmt (.ret none) {} [r, m] := by
  intro rest _ _
  refine Ev.mk (Eventually.of_forall fun n => ?_)
  show stepStmt _ (r :: m :: rest) = _
  rw [stepStmt_return hr]
  unfold stmtReturn retValue optAs terminator
  rw [adv_c hr (by decide), cur_c, if_pos (.inl hm), ok_bind']
  dsimp only
  rw [cur_c, if_neg (by rw [hm]; decide), ok_bind']
  rw [cur_c, if_neg (by rw [hm]; decide), if_pos hm, adv_c hm (by decide)]
  rfl

theorem cp_ret0End {r : Tok} (hr : r.kind = "RETURN") : Cp .stmt (.ret none) { stop := .dedentEnd } [r] := by
  intro rest hs _
  refine Ev.mk (Eventually.of_forall fun n => ?_)
  show stepStmt _ (r :: rest) = _
  rw [stepStmt_return hr]
  unfold stmtReturn retValue optAs terminator
  have hs : cur rest = "EOF" ∨ cur rest = "DEDENT" := hs
  rw [adv_c hr (by decide), if_pos (by rcases hs with h | h <;> simp [h]), ok_bind']
  dsimp only
  rcases hs with h | h
  · rw [if_neg (by rw [h]; decide), ok_bind']
    simp only [h]; rfl
  · rw [if_neg (by rw [h]; decide), ok_bind']
    simp only [h]; rfl

theorem cp_ret {e u w b we} {r : Tok} (hr : r.kind = "RETURN") (hd : D .expr e u w) (ih : Cp .expr e u w) (ht : Term b we) :
    Cp .stmt (.ret (some e)) { stop := b } (r :: w ++ we) := by
  intro rest hs _
  have hq : r :: w ++ we ++ rest = r :: (w ++ (we ++ rest)) := by simp
  rw [hq]
  obtain ⟨t1, t2⟩ := term_c ht hs
  have e1 := (ih (we ++ rest) (FE.sep (term_sep t2).1)).1
  have hf := expr_cur hd (we ++ rest)
  refine Ev.mk ?_
  filter_upwards [e1] with n e1
  show stepStmt _ _ = _
  rw [stepStmt_return hr]
  unfold stmtReturn retValue optAs
  rw [adv_c hr (by decide), if_neg (by
    rintro (h | h | h) <;> exact expr_not rfl hf h), e1, ok_bind]
  dsimp only
  rw [ok_bind']
  dsimp only
  rw [if_neg (term_sep t2).2.2.2.2.1, ok_bind', t1]
  rfl

theorem cp_retAs {e u w ty v wt b we} {r a : Tok} (hr : r.kind = "RETURN") (hd : D .expr e u w) (ih : Cp .expr e u w)
    (ha : a.kind = "AS") (iht : Cp .ty ty v wt) (ht : Term b we) :
    Cp .stmt (.ret (some e)) { stop := b } (r :: w ++ a :: wt ++ we) := by
  intro rest hs _
  have hq : r :: w ++ a :: wt ++ we ++ rest = r :: (w ++ a :: (wt ++ (we ++ rest))) := by simp
  rw [hq]
  obtain ⟨t1, t2⟩ := term_c ht hs
  have e1 := (ih (a :: (wt ++ (we ++ rest))) (FE.of ha rfl)).1
  have ts := term_sep t2
  have e2 := iht (we ++ rest) ts.2.2.2.2.2.2.1 ts.2.2.2.2.2.2.2.1
  rw [tyRes_plain _ ts.2.2.2.2.2.2.2.2] at e2
  have hf := expr_cur hd (a :: (wt ++ (we ++ rest)))
  refine Ev.mk ?_
  filter_upwards [e1, e2] with n e1 e2
  show stepStmt _ _ = _
  rw [stepStmt_return hr]
  unfold stmtReturn retValue optAs
  rw [adv_c hr (by decide), if_neg (by
    rintro (h | h | h) <;> exact expr_not rfl hf h), e1, ok_bind]
  dsimp only
  rw [ok_bind']
  dsimp only
  rw [cur_c, if_pos ha, adv_c ha (by decide), e2, ok_bind]
  dsimp only
  rw [ok_bind', t1]
  rfl

theorem pyBody_balanced {w : List Tok} (h : Balanced w) : ∀ (d : Nat) (r : List Tok),
    pyBody (d + 1) (w ++ r) = (w.map (·.lexeme) ++ (pyBody (d + 1) r).1, (pyBody (d + 1) r).2) := by
  induction h with
  | nil => intro d r; rfl
  | @other t w h1 h2 h3 _ ih =>
    intro d r
    show pyBody (d + 1) (t :: (w ++ r)) = _
    rw [pyBody, if_neg h3, if_neg h1, if_neg h2, ih]
    rfl
  | @braces a b v w ha _ hb _ ih1 ih2 =>
    intro d r
    have hs : a :: v ++ b :: w ++ r = a :: (v ++ b :: (w ++ r)) := by simp
    rw [hs, pyBody, if_neg (by rw [ha]; decide), if_pos ha, ih1, pyBody, if_neg (by rw [hb]; decide),
      if_neg (by rw [hb]; decide), if_pos hb, if_neg (by omega), ih2]
    simp

theorem pyBody_eof (d : Nat) {rest : List Tok} (h : cur rest = "EOF") : pyBody (d + 1) rest = ([], rest) := by
  cases rest with
  | nil => rfl
  | cons a r => rw [pyBody, if_pos (show a.kind = "EOF" from h)]

theorem pyBody_unclosed {w : List Tok} (h : Unclosed w) : ∀ (d : Nat) (rest : List Tok), cur rest = "EOF" →
    pyBody (d + 1) (w ++ rest) = (w.map (·.lexeme), rest) := by
  induction h with
  | balanced h => intro d rest hr; rw [pyBody_balanced h, pyBody_eof d hr]; simp
  | @more a v w hv ha _ ih =>
    intro d rest hr
    have hs : v ++ a :: w ++ rest = v ++ a :: (w ++ rest) := by simp
    rw [hs, pyBody_balanced hv, pyBody, if_neg (by rw [ha]; decide), if_pos ha, ih _ _ hr]
    simp

theorem stepStmt_python {f : ∀ s, P (Val s)} {p o : Tok} (hp : p.kind = "PYTHON") (ho : o.kind = "LBRACE") (s : List Tok) :
    stepStmt f (p :: o :: s) = .ok (Stmt.py (pyBody 1 s).1, (pyBody 1 s).2) := by
  unfold stepStmt
  rw [cur_c, if_neg (by rw [hp]; decide), if_neg (by rw [hp]; decide), if_neg (by rw [hp]; decide),
    if_neg (by rw [hp]; decide), if_neg (by rw [hp]; decide), if_neg (by rw [hp]; decide), if_neg (by rw [hp]; decide),
    if_neg (by rw [hp]; decide), if_neg (by rw [hp]; decide), if_pos hp]
  unfold stmtPython
  rw [adv_c hp (by decide), consume_c ho (by decide)]
  rfl

theorem cp_py {w} {p o c : Tok} (hp : p.kind = "PYTHON") (ho : o.kind = "LBRACE") (hw : Balanced w) (hc : c.kind = "RBRACE") :
    Cp .stmt (.py (w.map (·.lexeme))) {} (p :: o :: w ++ [c]) := by
  intro rest _ _
  have hq : p :: o :: w ++ [c] ++ rest = p :: o :: (w ++ c :: rest) := by simp
  rw [hq]
  refine Ev.mk (Eventually.of_forall fun n => ?_)
  show stepStmt _ _ = _
  rw [stepStmt_python hp ho, pyBody_balanced hw]
  have : pyBody 1 (c :: rest) = ([], rest) := by
    rw [pyBody, if_neg (by rw [hc]; decide), if_neg (by rw [hc]; decide), if_pos hc, if_pos rfl]
  rw [this]
  simp

theorem cp_pyOpen {w} {p o : Tok} (hp : p.kind = "PYTHON") (ho : o.kind = "LBRACE") (hw : Unclosed w) :
    Cp .stmt (.py (w.map (·.lexeme))) { stop := .textEnd } (p :: o :: w) := by
  intro rest hs _
  refine Ev.mk (Eventually.of_forall fun n => ?_)
  show stepStmt _ (p :: o :: (w ++ rest)) = _
  rw [stepStmt_python hp ho, pyBody_unclosed hw 0 rest hs]

theorem cp_varDecl {ty v wt b we} {i k : Tok} (hi : i.kind = "IDENTIFIER") (hk : k.kind = "COLON") (iht : Cp .ty ty v wt)
    (ht : Term b we) : Cp .stmt (.varDecl i.val (some ty) none) { stop := b } (i :: k :: wt ++ we) := by
  intro rest hs _
  have hq : i :: k :: wt ++ we ++ rest = i :: k :: (wt ++ (we ++ rest)) := by simp
  rw [hq]
  obtain ⟨t1, t2⟩ := term_c ht hs
  have ts := term_sep t2
  have e2 := iht (we ++ rest) ts.2.2.2.2.2.2.1 ts.2.2.2.2.2.2.2.1
  rw [tyRes_plain _ ts.2.2.2.2.2.2.2.2] at e2
  refine Ev.mk ?_
  filter_upwards [e2] with n e2
  show stepStmt _ _ = _
  rw [stepStmt_ident hi, if_pos hk]
  unfold stmtVarDecl optExpr
  rw [adv_c hi (by decide), adv_c hk (by decide), e2, ok_bind]
  dsimp only
  rw [if_neg ts.2.2.1, ok_bind']
  dsimp only
  rw [t1]
  rfl

theorem cp_varInit {ty v wt e u w b we} {i k a : Tok} (hi : i.kind = "IDENTIFIER") (hk : k.kind = "COLON")
    (iht : Cp .ty ty v wt) (ha : a.kind = "ASSIGN") (ih : Cp .expr e u w) (ht : Term b we) :
    Cp .stmt (.varDecl i.val (some ty) (some e)) { stop := b } (i :: k :: wt ++ a :: w ++ we) := by
  intro rest hs _
  have hq : i :: k :: wt ++ a :: w ++ we ++ rest = i :: k :: (wt ++ a :: (w ++ (we ++ rest))) := by simp
  rw [hq]
  obtain ⟨t1, t2⟩ := term_c ht hs
  have e1 := (ih (we ++ rest) (FE.sep (term_sep t2).1)).1
  have e2 := iht (a :: (w ++ (we ++ rest))) (by rw [cur_c, ha]; decide) (by rw [cur_c, ha]; decide)
  rw [tyRes_plain _ (by rw [cur_c, ha]; decide)] at e2
  refine Ev.mk ?_
  filter_upwards [e1, e2] with n e1 e2
  show stepStmt _ _ = _
  rw [stepStmt_ident hi, if_pos hk]
  unfold stmtVarDecl optExpr
  rw [adv_c hi (by decide), adv_c hk (by decide), e2, ok_bind]
  dsimp only
  rw [cur_c, if_pos ha, adv_c ha (by decide), e1, ok_bind]
  dsimp only
  rw [ok_bind']
  dsimp only
  rw [t1]
  rfl

theorem cp_simple {e u w b we} {i a : Tok} (hi : i.kind = "IDENTIFIER") (ha : a.kind = "ASSIGN") (ih : Cp .expr e u w)
    (ht : Term b we) : Cp .stmt (.varDecl i.val none (some e)) { stop := b } (i :: a :: w ++ we) := by
  intro rest hs _
  have hq : i :: a :: w ++ we ++ rest = i :: a :: (w ++ (we ++ rest)) := by simp
  rw [hq]
  obtain ⟨t1, t2⟩ := term_c ht hs
  have e1 := (ih (we ++ rest) (FE.sep (term_sep t2).1)).1
  refine Ev.mk ?_
  filter_upwards [e1] with n e1
  show stepStmt _ _ = _
  rw [stepStmt_ident hi, if_neg (by rw [ha]; decide), if_pos ha]
  unfold stmtSimple
  rw [adv_c hi (by decide), adv_c ha (by decide), e1, ok_bind]
  dsimp only
  rw [t1]
  rfl

theorem stmtTok_expr {s : List Tok} (h : exprFirst (cur s) = true) (hif : cur s ≠ "IF") : stmtTok (cur s) = false := by
  cases hb : stmtTok (cur s) with
  | false => rfl
  | true =>
    simp only [stmtTok, Bool.or_eq_true, decide_eq_true_eq] at hb
    rcases hb with ((((((((hb | hb) | hb) | hb) | hb) | hb) | hb) | hb) | hb) | hb <;>
      first | exact absurd hb hif | exact absurd hb (expr_not rfl h)

theorem cur_append {e t w} (h : D .expr e t w) (rest : List Tok) : cur (w ++ rest) = cur w := by
  rcases first_lemma h with ⟨-, h0⟩ | ⟨a, x, rfl, h0⟩
  · exact h0.elim
  · rfl

theorem cp_exprS {e u w b we} (hd : D .expr e u w) (ih : Cp .expr e u w) (hif : cur w ≠ "IF") (ht : Term b we) :
    Cp .stmt (.exprS e) { stop := b } (w ++ we) := by
  intro rest hs _
  rw [List.append_assoc]
  obtain ⟨t1, t2⟩ := term_c ht hs
  have ts := term_sep t2
  have e1 := (ih (we ++ rest) (FE.sep ts.1)).1
  refine Ev.mk ?_
  filter_upwards [e1] with n e1
  show stepStmt _ _ = _
  rw [stepStmt_expr (stmtTok_expr (expr_cur hd _) (by rw [cur_append hd]; exact hif))
    (peek1_expr hd rfl ts.2.2.2.1) (peek1_expr hd rfl ts.2.2.1)]
  unfold stmtExpr
  rw [e1, ok_bind]
  dsimp only
  rw [if_neg ts.2.2.1, t1]
  rfl

theorem cp_assign {e u w e' u' w' b we} {a : Tok} (hd : D .expr e u w) (ih : Cp .expr e u w)
    (h1 : ∀ t, w = [t] → t.kind ≠ "IDENTIFIER") (hif : cur w ≠ "IF") (ha : a.kind = "ASSIGN") (ih' : Cp .expr e' u' w')
    (ht : Term b we) : Cp .stmt (.assign e e') { stop := b } (w ++ a :: w' ++ we) := by
  intro rest hs _
  have hq : w ++ a :: w' ++ we ++ rest = w ++ a :: (w' ++ (we ++ rest)) := by simp
  rw [hq]
  obtain ⟨t1, t2⟩ := term_c ht hs
  have ts := term_sep t2
  have e1 := (ih (a :: (w' ++ (we ++ rest))) (FE.of ha rfl)).1
  have e2 := (ih' (we ++ rest) (FE.sep ts.1)).1
  refine Ev.mk ?_
  filter_upwards [e1, e2] with n e1 e2
  show stepStmt _ _ = _
  rw [stepStmt_expr (stmtTok_expr (expr_cur hd _) (by rw [cur_append hd]; exact hif))
    (peek1_expr hd rfl (by rw [cur_c, ha]; decide)) ?_]
  · unfold stmtExpr
    rw [e1, ok_bind]
    dsimp only
    rw [cur_c, if_pos ha, adv_c ha (by decide), e2, ok_bind]
    dsimp only
    rw [t1]
    rfl
  · rintro ⟨g1, g2⟩
    rcases first_lemma hd with ⟨-, h0⟩ | ⟨x, y, rfl, -⟩
    · exact h0.elim
    cases y with
    | nil => exact h1 x rfl g1
    | cons b y =>
      have := second_lemma hd trivial x b y rfl g1
      have g2 : b.kind = "ASSIGN" := g2
      rw [g2] at this
      cases this

/-- completeness for every kind of phrase -/
theorem complete {s : Sym} {v : Val s} {t : Tail} {w : List Tok} (h : D s v t w) : Cp s v t w := by
  induction h with
  | tyName h => exact cp_tyName h
  | tyGen h ho _ hd ih ih' => exact cp_tyGen (c := false) h ho ih ih' (tyTail_first hd)
  | tyGenLt h ho _ hd ih ih' => exact cp_tyGen (c := true) h ho ih ih' (tyTail_first hd)
  | @tyOpt q a u w _ hno hq ih =>
    intro rest h1 h2
    have := ih (q :: rest) (by rw [cur_c, hq]; decide) (by rw [cur_c, hq]; decide)
    have hr : tyRes a (q :: rest) = (.opt a, rest) := by
      unfold tyRes
      split
      · exact absurd rfl (hno _)
      · exact optMark_opt _ hq _
    rw [hr] at this
    have hs : w ++ [q] ++ rest = w ++ q :: rest := by simp
    rw [hs]
    exact this
  | @tyEnd c hc =>
    intro rest
    refine Ev.mk (Eventually.of_forall fun n => ?_)
    show stepTyTail (parse n) false (c :: rest) = _
    unfold stepTyTail
    rw [cur_c, if_neg (by rw [hc]; decide),
      show consume (tyClose false) (c :: rest) = .ok (c.val, rest) from consume_c hc (by decide) rest]
    rfl
  | @tyEndLt c hc =>
    intro rest
    refine Ev.mk (Eventually.of_forall fun n => ?_)
    show stepTyTail (parse n) true (c :: rest) = _
    unfold stepTyTail
    rw [cur_c, if_neg (by rw [hc]; decide),
      show consume (tyClose true) (c :: rest) = .ok (c.val, rest) from consume_c hc (by decide) rest]
    rfl
  | @tyMore c cl a as u u' w w' hc _ hd ih ih' =>
    intro rest
    have hs : c :: w ++ w' ++ rest = c :: (w ++ (w' ++ rest)) := by simp
    rw [hs]
    have hf := tyTail_first hd rest
    have e1 := ih (w' ++ rest) hf.1 hf.2.1
    rw [tyRes_plain _ hf.2.2] at e1
    have e2 := ih' rest
    refine Ev.mk ?_
    filter_upwards [e1, e2] with n e1 e2
    show stepTyTail (parse n) cl _ = _
    unfold stepTyTail
    rw [cur_c, if_pos hc, adv_c hc (by decide), e1, ok_bind]
    dsimp only
    rw [e2, ok_bind]
    rfl
  | expr _ ih => exact cp_expr ih
  | cond _ hl hi _ hn hel _ ih1 ih2 ih3 => exact cp_cond ih1 hl hi ih2 hn hel ih3
  | operand _ ih => exact cp_operand ih
  | op ho hm _ hl _ ih1 ih2 => exact cp_op ho hm ih1 hl ih2
  | unary ho _ ih => exact cp_unary ho ih
  | unPost hd ih => exact cp_unPost hd ih
  | prim _ ih => exact cp_prim ih
  | call _ hl hdot ho _ ih ih' => exact cp_call ih hl hdot ho ih'
  | method _ hl hd hi ho _ ih ih' => exact cp_method ih hl hd hi ho ih'
  | member _ hl hd hi ih => exact cp_member ih hl hd hi
  | index _ hl ho _ hc ih ih' => exact cp_index ih hl ho ih' hc
  | lit h => exact cp_lit h
  | ident h => exact cp_ident h
  | group ho hd hc ih => exact cp_group ho hd ih hc
  | lam0 ho hc ha _ ih => exact cp_lam0 ho hc ha ih
  | lam ho hp hc ha _ ih => exact cp_lam ho hp hc ha ih
  | list0 ho hc => exact cp_list0 ho hc
  | list ho hd hd' ih ih' => exact cp_list ho hd ih hd' ih'
  | comp ho hd hd' hne hc ih ih' => exact cp_comp ho hd ih hd' ih' hne hc
  | range ho hd hr _ hc ih ih' => exact cp_range ho hd ih hr ih' hc
  | dict ho _ ih => exact cp_dict ho ih
  | ifE hi _ ih => exact cp_ifE hi ih
  | matchE hm _ hc hn hi _ hd ih ih' => exact cp_matchE hm ih hc hn hi ih' hd
  | itemExpr hk hd ih => exact cp_itemExpr hk hd ih
  | itemNamed hi ha _ ih => exact cp_itemNamed hi ha ih
  | itemEntry hi ha _ ih => exact cp_itemEntry hi ha ih
  | seq0 hc => exact cp_seq0 hc
  | seq hd hd' ih ih' => exact cp_seq hd ih hd' ih'
  | seqEnd hc => exact cp_seqEnd hc
  | seqComma hm hc => exact cp_seqComma hm hc
  | seqMore hm hd hd' ih ih' => exact cp_seqMore hm hd ih hd' ih'
  | clauses0 => exact cp_clauses0
  | clause ho hv hi _ _ hd ih ih' ih'' => exact cp_clause ho hv hi ih ih' hd ih''
  | conds0 => exact cp_conds0
  | condsMore hi _ _ ih ih' => exact cp_condsMore hi ih ih'
  | elifs0 => exact cp_elifs0
  | elif ho _ hk _ _ ih ih' ih'' => exact cp_elif ho ih hk ih' ih''
  | ifThen _ hk _ _ ih ih' ih'' => exact cp_ifThen ih hk ih' ih''
  | ifElse _ hk _ _ he hk' _ ih ih' ih'' ih3 => exact cp_ifElse ih hk ih' ih'' he hk' ih3
  | arms0 => exact cp_arms0
  | armsNl ha hd ih => exact cp_armsNl ha hd ih
  | arm hq hp hk _ hd ih ih' => exact cp_arm (pre := []) (.inl ⟨rfl, hq⟩) hp hk ih hd ih'
  | @armCase p e t w as u w' o q k ho hp hk _ hd ih ih' => exact cp_arm (pre := [o]) (.inr ⟨o, rfl, ho⟩) hp hk ih hd ih'
  | blockNl ha _ ih => exact cp_blockNl ha ih
  | indented hi _ ht hd ih => exact cp_indented hi ih ht hd
  | braced hi _ ht hd ih => exact cp_braced hi ih ht hd
  | stmts0 => exact cp_stmts0
  | stmtsNl ha hd ih => exact cp_stmtsNl ha hd ih
  | stmtsMore hd ht hd' ih ih' => exact cp_stmtsMore hd ih ht hd' ih'
  | stmtsLast hd ih => exact cp_stmtsLast hd ih
  | letS hl hi ha _ ht ih => exact cp_letS hl hi ha ih ht
  | letTy hl hi hk _ ha _ ht iht ih => exact cp_letTy hl hi hk iht ha ih ht
  | require hr _ ht ih => exact cp_require hr ih ht
  | requireMsg hr _ hk _ ht ih ih' => exact cp_requireMsg hr ih hk ih' ht
  | assert hr _ ht ih => exact cp_assert hr ih ht
  | assertMsg hr _ hk _ ht ih ih' => exact cp_assertMsg hr ih hk ih' ht
  | emit hr _ hd ht ih ih' => exact cp_emit hr ih hd ih' ht
  | emitWith hr _ hd hh ho _ ht ih ih' ih'' => exact cp_emitWith hr ih hd ih' hh ho ih'' ht
  | meta0 => exact cp_meta0
  | metaComma hk => exact cp_metaComma hk
  | metaMore hk hi ha _ hd ih ih' => exact cp_metaMore hk hi ha ih hd ih'
  | forS ho hv hi _ hk _ ih ih' => exact cp_forS ho hv hi ih hk ih'
  | ifS hi _ ih => exact cp_ifS hi ih
  | pass hp ht => exact cp_pass hp ht
  | ret0 hr hm => exact cp_ret0 hr hm
  | ret0End hr => exact cp_ret0End hr
  | ret hr hd ht ih => exact cp_ret hr hd ih ht
  | retAs hr hd ha _ ht ih iht => exact cp_retAs hr hd ih ha iht ht
  | py hp ho hw hc => exact cp_py hp ho hw hc
  | pyOpen hp ho hw => exact cp_pyOpen hp ho hw
  | varDecl hi hk _ ht iht => exact cp_varDecl hi hk iht ht
  | varInit hi hk _ ha _ ht iht ih => exact cp_varInit hi hk iht ha ih ht
  | simple hi ha _ ht ih => exact cp_simple hi ha ih ht
  | assign hd h1 hif ha _ ht ih ih' => exact cp_assign hd ih h1 hif ha ih' ht
  | exprS hd hif ht ih => exact cp_exprS hd ih hif ht

end Verif.Parser
