import Verif.Parser.Second
import Mathlib.Order.Filter.AtTopBot.Basic


/-! Completeness: whatever is a phrase of the grammar is accepted by the parser, with the tree the grammar gives it. -/

namespace Verif.Parser

open Verif.Lexer Filter

/-- the method succeeds with this result, with any sufficient recursion bound -/
def Ev (s : Sym) (toks : List Tok) (R : Val s × List Tok) : Prop := ∀ᶠ n in atTop, parse n s toks = .ok R

theorem Ev.mk {s : Sym} {toks : List Tok} {R : Val s × List Tok}
    (h : ∀ᶠ n in atTop, step (parse n) s toks = .ok R) : Ev s toks R := by
  obtain ⟨N, hN⟩ := eventually_atTop.1 h
  refine eventually_atTop.2 ⟨N + 1, fun n hn => ?_⟩
  cases n with
  | zero => omega
  | succ n => exact hN n (by omega)

theorem Ev.step {s : Sym} {toks : List Tok} {R : Val s × List Tok} (h : Ev s toks R) :
    ∀ᶠ n in atTop, step (parse n) s toks = .ok R := by
  obtain ⟨N, hN⟩ := eventually_atTop.1 h
  exact eventually_atTop.2 ⟨N, fun n hn => hN (n + 1) (by omega)⟩

theorem Ev.get {s : Sym} {toks : List Tok} {R : Val s × List Tok} (h : Ev s toks R) : ∃ n, parse n s toks = .ok R := by
  obtain ⟨N, hN⟩ := eventually_atTop.1 h
  exact ⟨N, hN N (Nat.le_refl _)⟩

theorem ok_bind {α β : Type} (a : α) (f : α → Except PErr β) : ((Except.ok a : Except PErr α) >>= f) = f a := rfl

/-- an `if` that follows begins no conditional expression, but something with an operand -/
def IfOK (rest : List Tok) : Prop :=
  cur rest = "IF" → ∃ c s', Ev (.bin 0) (adv rest) (c, s') ∧ cur s' ≠ "ELSE"

/-- what may follow a primary expression (`if` the caller goes on with postfix operators) -/
structure FP (t : Tail) (rest : List Tok) : Prop where
  arrow : cur rest ≠ "DOUBLE_ARROW"
  noElse : t.noElse = true → cur rest ≠ "ELSE" ∧ cur rest ≠ "ELIF"
  lam : t.lam = true → prec (cur rest) = none ∧ postTok (cur rest) = false ∧ IfOK rest
  dot : t.dot = true → cur rest ≠ "LPAREN"

/-- what may follow an operand -/
structure FB (t : Tail) (rest : List Tok) : Prop extends FP t rest where
  post : postTok (cur rest) = false

/-- what may follow an expression -/
structure FE (t : Tail) (rest : List Tok) : Prop where
  prec : prec (cur rest) = none
  post : postTok (cur rest) = false
  arrow : cur rest ≠ "DOUBLE_ARROW"
  noElse : t.noElse = true → cur rest ≠ "ELSE" ∧ cur rest ≠ "ELIF"
  ifOK : IfOK rest

theorem post_lparen {k : String} (h : postTok k = false) : k ≠ "LPAREN" := by
  rintro rfl
  exact absurd h (by decide)

theorem FE.toFB {t : Tail} {rest : List Tok} (h : FE t rest) : FB t rest :=
  ⟨⟨h.arrow, h.noElse, fun _ => ⟨h.prec, h.post, h.ifOK⟩, fun _ => post_lparen h.post⟩, h.post⟩

/-- tokens that can follow any expression -/
def sep (k : String) : Bool :=
  prec k = none && !postTok k && k ≠ "DOUBLE_ARROW" && k ≠ "ELSE" && k ≠ "ELIF" && k ≠ "IF"

theorem FE.sep {t : Tail} {rest : List Tok} (h : sep (cur rest) = true) : FE t rest := by
  simp only [Verif.Parser.sep, Bool.and_eq_true, decide_eq_true_eq, Bool.not_eq_true', ne_eq] at h
  obtain ⟨⟨⟨⟨⟨h1, h2⟩, h3⟩, h4⟩, h5⟩, h6⟩ := h
  exact ⟨h1, h2, h3, fun _ => ⟨h4, h5⟩, fun h => absurd h h6⟩

theorem FE.of {t : Tail} {rest : List Tok} {k : String} (h : cur rest = k) (hk : Verif.Parser.sep k = true) :
    FE t rest := FE.sep (by rw [h]; exact hk)

theorem FP.closed {rest : List Tok} (h : cur rest ≠ "DOUBLE_ARROW") : FP {} rest := ⟨h, by simp, by simp, by simp⟩

/-- the result of `_parse_type` after a type with this tree -/
def tyRes (v : Ty) (rest : List Tok) : Ty × List Tok :=
  match v with
  | .opt a => (.opt a, rest)
  | v => optMark v rest

/-- tokens after a simple statement's last part, and `with` -/
def termTok (k : String) : Bool :=
  k = "EOF" || k = "NEWLINE" || k = "DEDENT" || k = "RBRACE" || k = "SEMICOLON" || k = "WITH"

/-- the completeness claim for one kind of phrase -/
def Cp : (s : Sym) → Val s → Tail → List Tok → Prop
  | .ty, v, _, w => ∀ rest, cur rest ≠ "LBRACKET" → cur rest ≠ "LT" → Ev .ty (w ++ rest) (tyRes v rest)
  | .tyTail c, v, _, w => ∀ rest, Ev (.tyTail c) (w ++ rest) (v, rest)
  | .expr, v, t, w => ∀ rest, FE t rest → Ev .expr (w ++ rest) (v, rest) ∧
      (cur rest ≠ "ELSE" → ∃ c s', Ev (.bin 0) (w ++ rest) (c, s') ∧ cur s' ≠ "ELSE")
  | .bin q, v, t, w => ∀ m ≤ q, ∀ rest R, FB t rest →
      (∀ p, prec (cur rest) = some p → leftLevel (cur rest) p ≤ q) → Ev (.binLoop m v) rest R →
      Ev (.bin m) (w ++ rest) R
  | .unary, v, t, w => ∀ rest, FB t rest → Ev .unary (w ++ rest) (v, rest)
  | .post, v, t, w => ∀ rest R, FP t rest → Ev (.postLoop v) rest R → Ev .post (w ++ rest) R
  | .prim, v, t, w => ∀ rest, FP t rest → Ev .prim (w ++ rest) (v, rest)
  | .item k, v, _, w => ∀ rest, cur rest = "COMMA" ∨ cur rest = k.close → Ev (.item k) (w ++ rest) (v, rest)
  | .seq k, v, _, w => ∀ rest, Ev (.seq k) (w ++ rest) (v, rest)
  | .seqTail k, v, _, w => ∀ rest, Ev (.seqTail k) (w ++ rest) (v, rest)
  | .clauses, v, _, w => ∀ rest, cur rest = "RBRACKET" → Ev .clauses (w ++ rest) (v, rest)
  | .conds, v, _, w => ∀ rest, cur rest = "RBRACKET" ∨ cur rest = "FOR" → Ev .conds (w ++ rest) (v, rest) ∧
      FE { noElse := true } (w ++ rest) ∧ cur (w ++ rest) ≠ "ELSE"
  | .elifs, v, _, w => ∀ rest, cur rest ≠ "ELIF" → Ev .elifs (w ++ rest) (v, rest)
  | .ifParts, v, t, w => ∀ rest, (t.noElse = true → cur rest ≠ "ELSE" ∧ cur rest ≠ "ELIF") →
      Ev .ifParts (w ++ rest) (v, rest)
  | .arms, v, _, w => ∀ rest, cur rest = "DEDENT" → Ev .arms (w ++ rest) (v, rest) ∧ cur (skipNl (w ++ rest)) ≠ "EOF"
  | .block, v, _, w => ∀ rest, Ev .block (w ++ rest) (v, rest)
  | .stmts c, v, t, w => ∀ rest, cur rest = blockClose c → stopOK t.stop rest → Ev (.stmts c) (w ++ rest) (v, rest)
  | .stmt, v, t, w => ∀ rest, stopOK t.stop rest → (t.noElse = true → cur rest ≠ "ELSE" ∧ cur rest ≠ "ELIF") →
      Ev .stmt (w ++ rest) (v, rest)
  | .emitMeta, v, _, w => ∀ rest, termTok (cur rest) = true → Ev .emitMeta (w ++ rest) (v, rest)
  | .binLoop _ _, _, _, _ => True
  | .postLoop _, _, _, _ => True

theorem adv_c {a : Tok} {k : String} (h : a.kind = k) (hk : k ≠ "EOF") (r : List Tok) : adv (a :: r) = r := by
  simp [adv, cur, h, hk]

theorem cur_c (a : Tok) (r : List Tok) : cur (a :: r) = a.kind := rfl

theorem val_c (a : Tok) (r : List Tok) : val (a :: r) = a.val := rfl

theorem consume_c {a : Tok} {k : String} (h : a.kind = k) (hk : k ≠ "EOF") (r : List Tok) :
    consume k (a :: r) = .ok (a.val, r) := by
  simp [consume, cur, val, adv, h, hk]

theorem if_t {α : Sort _} {c : Prop} [Decidable c] {a b : α} (h : c) : (if c then a else b) = a := if_pos h

/-! ### types -/

theorem optMark_opt (a : Ty) {q : Tok} (hq : q.kind = "QUESTION") (r : List Tok) :
    optMark a (q :: r) = (.opt a, r) := by
  unfold optMark
  rw [cur_c, if_pos hq, adv_c hq (by decide)]

theorem tyRes_plain (v : Ty) {rest : List Tok} (h : cur rest ≠ "QUESTION") : tyRes v rest = (v, rest) := by
  unfold tyRes
  split
  · rfl
  · unfold optMark; rw [if_neg h]

theorem cp_tyName {t : Tok} (h : isName t.kind = true) : Cp .ty (.simple t.val) {} [t] := by
  intro rest h1 h2
  refine Ev.mk (Eventually.of_forall fun n => ?_)
  show stepTy (parse n) (t :: rest) = _
  have ha : adv (t :: rest) = rest := adv_c rfl (isName_ne_eof (s := t :: rest) h) rest
  unfold stepTy stepTyCore
  rw [cur_c, if_pos h]
  dsimp only
  rw [ha, if_neg h1, if_neg h2]
  rfl

theorem cp_tyGen {t o : Tok} {a as w w'} {c : Bool} (h : isName t.kind = true)
    (ho : o.kind = if c then "LT" else "LBRACKET")
    (iha : Cp .ty a {} w) (ihs : Cp (.tyTail c) as {} w') (hf : ∀ rest, cur (w' ++ rest) ≠ "LBRACKET" ∧
      cur (w' ++ rest) ≠ "LT" ∧ cur (w' ++ rest) ≠ "QUESTION") :
    Cp .ty (.generic t.val (a :: as)) {} (t :: o :: w ++ w') := by
  intro rest h1 h2
  have e1 := iha (w' ++ rest) (hf rest).1 (hf rest).2.1
  rw [tyRes_plain _ (hf rest).2.2] at e1
  have e2 := ihs rest
  refine Ev.mk ?_
  filter_upwards [e1, e2] with n e1 e2
  show stepTy (parse n) _ = _
  have hs : t :: o :: w ++ w' ++ rest = t :: o :: (w ++ (w' ++ rest)) := by simp
  rw [hs]
  have ha : ∀ r, adv (t :: r) = r := fun r => adv_c rfl (isName_ne_eof (s := t :: rest) h) r
  unfold stepTy stepTyCore
  rw [cur_c, if_pos h]
  dsimp only
  rw [ha, cur_c, val_c]
  cases c
  · have ho : o.kind = "LBRACKET" := ho
    rw [if_pos ho, adv_c ho (by decide), e1, ok_bind]
    dsimp only
    rw [e2]
    rfl
  · have ho : o.kind = "LT" := ho
    rw [if_neg (by rw [ho]; decide), if_pos ho, adv_c ho (by decide), e1, ok_bind]
    dsimp only
    rw [e2]
    rfl

theorem tyTail_first {c : Bool} {as u w} (h : D (.tyTail c) as u w) (rest : List Tok) : cur (w ++ rest) ≠ "LBRACKET" ∧
      cur (w ++ rest) ≠ "LT" ∧ cur (w ++ rest) ≠ "QUESTION" := by
  rcases first_lemma h with ⟨-, h0⟩ | ⟨a, x, rfl, h0⟩
  · exact h0.elim
  · have : a.kind = tyClose c ∨ a.kind = "COMMA" := h0
    show a.kind ≠ _ ∧ a.kind ≠ _ ∧ a.kind ≠ _
    rcases this with h | h
    · cases c <;> (rw [h]; decide)
    · rw [h]; decide

/-! ### expressions -/

theorem cp_expr {v t w} (ih : Cp (.bin 0) v t w) : Cp .expr v t w := by
  intro rest hf
  have hb : Ev (.bin 0) (w ++ rest) (v, rest) := by
    refine ih 0 (Nat.le_refl _) rest _ hf.toFB (by rw [hf.prec]; intro p h; cases h) ?_
    refine Ev.mk (Eventually.of_forall fun n => ?_)
    show stepBinLoop (parse n) 0 v rest = _
    unfold stepBinLoop
    rw [hf.prec]
    rfl
  refine ⟨?_, fun h => ⟨v, rest, hb, h⟩⟩
  by_cases hif : cur rest = "IF"
  · obtain ⟨c, s', hc, hs'⟩ := hf.ifOK hif
    refine Ev.mk ?_
    filter_upwards [hb, hc] with n hb hc
    show stepExpr (parse n) _ = _
    unfold stepExpr
    rw [hb, ok_bind]
    dsimp only
    rw [if_pos hif, hc, ok_bind]
    dsimp only
    rw [if_neg hs']
    rfl
  · refine Ev.mk ?_
    filter_upwards [hb] with n hb
    show stepExpr (parse n) _ = _
    unfold stepExpr
    rw [hb, ok_bind]
    dsimp only
    rw [if_neg hif]
    rfl

theorem cp_cond {a c e ta tc te wa wc we} {i l : Tok} (ha : Cp (.bin 0) a ta wa) (hl : ta.lam = false)
    (hi : i.kind = "IF") (hc : Cp (.bin 0) c tc wc) (hn : tc.noElse = false) (hel : l.kind = "ELSE")
    (he : Cp .expr e te we) : Cp .expr (.cond c a e) te (wa ++ i :: wc ++ l :: we) := by
  intro rest hf
  have e3 := (he rest hf).1
  have loop : ∀ (x : Expr) (o : Tok) (r : List Tok), prec o.kind = none → Ev (.binLoop 0 x) (o :: r) (x, o :: r) := by
    intro x o r ho
    refine Ev.mk (Eventually.of_forall fun n => ?_)
    show stepBinLoop (parse n) 0 x (o :: r) = _
    unfold stepBinLoop
    rw [cur_c, ho]
    rfl
  have e1 : Ev (.bin 0) (wa ++ i :: (wc ++ l :: (we ++ rest))) (a, i :: (wc ++ l :: (we ++ rest))) := by
    refine ha 0 (Nat.le_refl _) _ _ ⟨⟨?_, ?_, ?_, ?_⟩, ?_⟩ ?_ (loop _ _ _ (by rw [hi]; rfl))
    · rw [cur_c, hi]; decide
    · intro _; rw [cur_c, hi]; decide
    · rw [hl]; intro h; cases h
    · intro _; rw [cur_c, hi]; decide
    · rw [cur_c, hi]; rfl
    · rw [cur_c, hi]; intro p h; cases h
  have e2 : Ev (.bin 0) (wc ++ l :: (we ++ rest)) (c, l :: (we ++ rest)) := by
    refine hc 0 (Nat.le_refl _) _ _ ⟨⟨?_, ?_, ?_, ?_⟩, ?_⟩ ?_ (loop _ _ _ (by rw [hel]; rfl))
    · rw [cur_c, hel]; decide
    · rw [hn]; intro h; cases h
    · intro _
      rw [cur_c, hel]
      refine ⟨rfl, rfl, ?_⟩
      intro h
      rw [cur_c, hel] at h
      exact absurd h (by decide)
    · intro _; rw [cur_c, hel]; decide
    · rw [cur_c, hel]; rfl
    · rw [cur_c, hel]; intro p h; cases h
  have hs : wa ++ i :: wc ++ l :: we ++ rest = wa ++ i :: (wc ++ l :: (we ++ rest)) := by simp
  rw [hs]
  refine ⟨?_, fun _ => ⟨a, _, e1, by rw [cur_c, hi]; decide⟩⟩
  refine Ev.mk ?_
  filter_upwards [e1, e2, e3] with n e1 e2 e3
  show stepExpr (parse n) _ = _
  unfold stepExpr
  rw [e1, ok_bind]
  dsimp only
  rw [cur_c, if_pos hi, adv_c hi (by decide), e2, ok_bind]
  dsimp only
  rw [cur_c, if_pos hel, adv_c hel (by decide), e3, ok_bind]
  rfl

theorem cp_operand {m v t w} (ih : Cp .unary v t w) : Cp (.bin m) v t w := by
  intro k hk rest R hf hp hR
  have e1 := ih rest hf
  refine Ev.mk ?_
  filter_upwards [e1, hR] with n e1 e2
  show stepBin (parse n) k _ = _
  unfold stepBin
  rw [e1, ok_bind]
  exact e2

theorem op_tok {k : String} {p : Nat} (h : (k, p) ∈ opLevel) :
    postTok k = false ∧ k ≠ "DOUBLE_ARROW" ∧ k ≠ "ELSE" ∧ k ≠ "ELIF" ∧ k ≠ "EOF" := by
  simp only [opLevel, List.mem_cons, Prod.mk.injEq, List.not_mem_nil, or_false] at h
  rcases h with ⟨h, -⟩ | ⟨h, -⟩ | ⟨h, -⟩ | ⟨h, -⟩ | ⟨h, -⟩ | ⟨h, -⟩ | ⟨h, -⟩ |
      ⟨h, -⟩ | ⟨h, -⟩ | ⟨h, -⟩ | ⟨h, -⟩ | ⟨h, -⟩ | ⟨h, -⟩ | ⟨h, -⟩ | ⟨h, -⟩ <;> (subst h; decide)

theorem cp_op {m p l r tl tr wl wr} {o : Tok} (ho : (o.kind, p) ∈ opLevel) (hm : m ≤ p)
    (hl : Cp (.bin (leftLevel o.kind p)) l tl wl) (hlam : tl.lam = false)
    (hr : Cp (.bin (rightLevel o.kind p)) r tr wr) : Cp (.bin m) (.bin o.kind l r) tr (wl ++ o :: wr) := by
  intro k hk rest R hf hp hR
  have hs : wl ++ o :: wr ++ rest = wl ++ o :: (wr ++ rest) := by simp
  rw [hs]
  obtain ⟨t1, t2, t3, t4, t5⟩ := op_tok ho
  have hpo := prec_mem.2 ho
  have hlev : p ≤ leftLevel o.kind p := by unfold leftLevel; split <;> omega
  have hrlev : p ≤ rightLevel o.kind p := by unfold rightLevel; split <;> omega
  have e1 : Ev (.bin (rightLevel o.kind p)) (wr ++ rest) (r, rest) := by
    refine hr _ (Nat.le_refl _) rest _ hf ?_ ?_
    · intro p' hp'
      have := hp p' hp'
      omega
    · refine Ev.mk (Eventually.of_forall fun n => ?_)
      show stepBinLoop (parse n) _ r rest = _
      unfold stepBinLoop
      cases hq : prec (cur rest) with
      | none => rfl
      | some p' =>
        dsimp only
        have h8 := hp p' hq
        have h7 := prec_le hq
        have h6 := prec_le hpo
        have : p' < rightLevel o.kind p := by
          unfold rightLevel
          unfold leftLevel at h8
          by_cases hst : o.kind = "DOUBLE_STAR"
          · rw [if_pos hst]
            by_cases hst' : cur rest = "DOUBLE_STAR"
            · rw [if_pos hst'] at h8; omega
            · rw [if_neg hst'] at h8
              have : p' ≠ 7 := fun h => hst' (prec_seven (h ▸ hq))
              rw [hst] at hpo
              cases hpo
              omega
          · rw [if_neg hst]
            split at h8 <;> omega
        rw [if_pos this]
        rfl
  refine hl k (by omega) _ R ⟨⟨t2, fun _ => ⟨t3, t4⟩, (by rw [hlam]; intro h; cases h), fun _ => post_lparen t1⟩, t1⟩ ?_ ?_
  · intro p' hp'
    have e : p' = p := Option.some.inj (hp'.symm.trans hpo)
    subst e
    exact Nat.le_refl _
  · refine Ev.mk ?_
    filter_upwards [e1, hR] with n e1 e2
    show stepBinLoop (parse n) k l (o :: (wr ++ rest)) = _
    unfold stepBinLoop
    rw [cur_c, hpo]
    dsimp only
    rw [if_neg (by omega), adv_c rfl t5]
    have : nextPrec o.kind p = rightLevel o.kind p := rfl
    rw [this, e1, ok_bind]
    exact e2

theorem cp_unary {e t w} {o : Tok} (ho : o.kind = "NOT" ∨ o.kind = "MINUS") (ih : Cp .unary e t w) :
    Cp .unary (.un o.kind e) t (o :: w) := by
  intro rest hf
  have e1 := ih rest hf
  refine Ev.mk ?_
  filter_upwards [e1] with n e1
  show stepUnary (parse n) (o :: (w ++ rest)) = _
  unfold stepUnary
  rw [cur_c, if_pos ho, adv_c rfl (by rcases ho with h | h <;> rw [h] <;> decide), e1, ok_bind]
  rfl

/-- a postfix expression does not begin with a prefix operator -/
theorem post_first {s : Sym} {v : Val s} {t : Tail} {w : List Tok} (h : D s v t w) : s = .post ∨ s = .prim →
    ∃ a x, w = a :: x ∧ a.kind ≠ "NOT" ∧ a.kind ≠ "MINUS" := by
  induction h <;> intro hs <;> first
    | (rcases hs with hs | hs <;> cases hs; done)
    | skip
  case prim ih => exact ih (.inr rfl)
  case call ih _ | method ih _ | member ih | index ih _ =>
    obtain ⟨a, x, rfl, h⟩ := ih (.inl rfl)
    exact ⟨a, _, rfl, h⟩
  case lit h => refine ⟨_, _, rfl, ?_, ?_⟩ <;> (intro e; rw [e] at h; exact absurd h (by decide))
  case ident h => refine ⟨_, _, rfl, ?_, ?_⟩ <;> (intro e; rw [e] at h; exact absurd h (by decide))
  all_goals
    refine ⟨_, _, rfl, ?_, ?_⟩ <;> (intro e; simp_all)

theorem cp_unPost {e t w} (hd : D .post e t w) (ih : Cp .post e t w) : Cp .unary e t w := by
  intro rest hf
  have e1 : Ev .post (w ++ rest) (e, rest) := by
    refine ih rest _ hf.toFP ?_
    refine Ev.mk (Eventually.of_forall fun n => ?_)
    show stepPostLoop (parse n) e rest = _
    have := hf.post
    simp only [postTok, Bool.or_eq_false_iff, decide_eq_false_iff_not] at this
    unfold stepPostLoop
    rw [if_neg this.1.1, if_neg this.1.2, if_neg this.2]
    rfl
  refine Ev.mk ?_
  filter_upwards [e1] with n e1
  show stepUnary (parse n) (w ++ rest) = _
  unfold stepUnary
  rw [if_neg ?_, e1]
  rcases post_first hd (.inl rfl) with ⟨a, x, rfl, h1, h2⟩
  rintro (h | h)
  · exact h1 h
  · exact h2 h

theorem cp_prim {e t w} (ih : Cp .prim e t w) : Cp .post e t w := by
  intro rest R hf hR
  have e1 := ih rest hf
  refine Ev.mk ?_
  filter_upwards [e1, hR] with n e1 e2
  show stepPost (parse n) (w ++ rest) = _
  unfold stepPost
  rw [e1, ok_bind]
  exact e2

theorem cp_call {e t w as w'} {u : Tail} {o : Tok} (ih : Cp .post e t w) (hl : t.lam = false) (hdot : t.dot = false) (ho : o.kind = "LPAREN")
    (ihs : Cp (.seq .args) as u w') : Cp .post (.call e (positional as) (named as)) {} (w ++ o :: w') := by
  intro rest R hf hR
  have hs : w ++ o :: w' ++ rest = w ++ o :: (w' ++ rest) := by simp
  rw [hs]
  have e1 := ihs rest
  refine ih _ R ⟨by rw [cur_c, ho]; decide, fun _ => by rw [cur_c, ho]; decide, (by rw [hl]; intro h; cases h), by rw [hdot]; intro h; cases h⟩ ?_
  refine Ev.mk ?_
  filter_upwards [e1, hR] with n e1 e2
  show stepPostLoop (parse n) e (o :: (w' ++ rest)) = _
  unfold stepPostLoop
  rw [cur_c, if_pos ho, adv_c ho (by decide), e1, ok_bind]
  exact e2

theorem cp_method {e t w as w'} {u : Tail} {d i o : Tok} (ih : Cp .post e t w) (hl : t.lam = false) (hd : d.kind = "DOT")
    (hi : i.kind = "IDENTIFIER") (ho : o.kind = "LPAREN")
    (ihs : Cp (.seq .args) as u w') : Cp .post (.method e i.val (positional as) (named as)) {} (w ++ d :: i :: o :: w') := by
  intro rest R hf hR
  have hs : w ++ d :: i :: o :: w' ++ rest = w ++ d :: i :: o :: (w' ++ rest) := by simp
  rw [hs]
  have e1 := ihs rest
  refine ih _ R ⟨by rw [cur_c, hd]; decide, fun _ => by rw [cur_c, hd]; decide, (by rw [hl]; intro h; cases h), fun _ => by rw [cur_c, hd]; decide⟩ ?_
  refine Ev.mk ?_
  filter_upwards [e1, hR] with n e1 e2
  show stepPostLoop (parse n) e (d :: i :: o :: (w' ++ rest)) = _
  unfold stepPostLoop
  rw [cur_c, if_neg (by rw [hd]; decide), if_pos hd, adv_c hd (by decide), consume_c hi (by decide), ok_bind]
  dsimp only
  rw [cur_c, if_pos ho, adv_c ho (by decide), e1, ok_bind]
  exact e2

theorem cp_member {e t w} {d i : Tok} (ih : Cp .post e t w) (hl : t.lam = false) (hd : d.kind = "DOT")
    (hi : i.kind = "IDENTIFIER") : Cp .post (.member e i.val) { dot := true } (w ++ [d, i]) := by
  intro rest R hf hR
  have hs : w ++ [d, i] ++ rest = w ++ d :: i :: rest := by simp
  rw [hs]
  have ho : cur rest ≠ "LPAREN" := hf.dot rfl
  refine ih _ R ⟨by rw [cur_c, hd]; decide, fun _ => by rw [cur_c, hd]; decide, (by rw [hl]; intro h; cases h),
    fun _ => by rw [cur_c, hd]; decide⟩ ?_
  refine Ev.mk ?_
  filter_upwards [hR] with n e2
  show stepPostLoop (parse n) e (d :: i :: rest) = _
  unfold stepPostLoop
  rw [cur_c, if_neg (by rw [hd]; decide), if_pos hd, adv_c hd (by decide), consume_c hi (by decide), ok_bind]
  dsimp only
  rw [if_neg ho]
  exact e2

theorem cp_index {e t w i u w'} {o c : Tok} (ih : Cp .post e t w) (hl : t.lam = false) (ho : o.kind = "LBRACKET")
    (ihi : Cp .expr i u w') (hc : c.kind = "RBRACKET") : Cp .post (.index e i) {} (w ++ o :: w' ++ [c]) := by
  intro rest R hf hR
  have hs : w ++ o :: w' ++ [c] ++ rest = w ++ o :: (w' ++ c :: rest) := by simp
  rw [hs]
  have e1 := (ihi (c :: rest) (FE.of hc rfl)).1
  refine ih _ R ⟨by rw [cur_c, ho]; decide, fun _ => by rw [cur_c, ho]; decide, (by rw [hl]; intro h; cases h),
    fun _ => by rw [cur_c, ho]; decide⟩ ?_
  refine Ev.mk ?_
  filter_upwards [e1, hR] with n e1 e2
  show stepPostLoop (parse n) e (o :: (w' ++ c :: rest)) = _
  unfold stepPostLoop
  rw [cur_c, if_neg (by rw [ho]; decide), if_neg (by rw [ho]; decide), if_pos ho, adv_c ho (by decide), e1, ok_bind]
  dsimp only
  rw [consume_c hc (by decide), ok_bind]
  exact e2

theorem isLit_tok {k : String} (h : isLit k = true) : k ≠ "EOF" := by rintro rfl; exact absurd h (by decide)
theorem isName_tok {k : String} (h : isName k = true) : k ≠ "EOF" ∧ isLit k = false := by
  refine ⟨by rintro rfl; exact absurd h (by decide), ?_⟩
  cases hl : isLit k with
  | false => rfl
  | true =>
    simp only [isLit, Bool.or_eq_true, decide_eq_true_eq] at hl
    rcases hl with ((hl | hl) | hl) | hl <;> (subst hl; exact absurd h (by decide))

theorem cp_lit {t : Tok} (h : isLit t.kind = true) : Cp .prim (.lit t.kind t.val) {} [t] := by
  intro rest hf
  refine Ev.mk (Eventually.of_forall fun n => ?_)
  show stepPrim (parse n) (t :: rest) = _
  unfold stepPrim
  rw [cur_c, if_pos h, adv_c rfl (isLit_tok h)]
  rfl

theorem cp_ident {t : Tok} (h : isName t.kind = true) : Cp .prim (.ident t.val) {} [t] := by
  intro rest hf
  refine Ev.mk (Eventually.of_forall fun n => ?_)
  show stepPrim (parse n) (t :: rest) = _
  unfold stepPrim
  rw [cur_c, if_neg (by simp [(isName_tok h).2]), if_pos h, adv_c rfl (isName_tok h).1]
  rfl

theorem prim_lparen {f : ∀ s, P (Val s)} {o : Tok} (ho : o.kind = "LPAREN") (r : List Tok) :
    stepPrim f (o :: r) = stepGroup f r := by
  unfold stepPrim
  rw [cur_c, if_neg (by rw [ho]; decide), if_neg (by rw [ho]; decide), if_pos ho, adv_c ho (by decide)]

theorem prim_lbracket {f : ∀ s, P (Val s)} {o : Tok} (ho : o.kind = "LBRACKET") (r : List Tok) :
    stepPrim f (o :: r) = stepList f r := by
  unfold stepPrim
  rw [cur_c, if_neg (by rw [ho]; decide), if_neg (by rw [ho]; decide), if_neg (by rw [ho]; decide), if_pos ho,
    adv_c ho (by decide)]

theorem expr_cur {e t w} (h : D .expr e t w) (rest : List Tok) : exprFirst (cur (w ++ rest)) = true := by
  rcases first_lemma h with ⟨-, h0⟩ | ⟨a, x, rfl, h0⟩
  · exact h0.elim
  · exact h0

theorem expr_not {k : String} (hk : exprFirst k = false) {s : List Tok} (h : exprFirst (cur s) = true) : cur s ≠ k := by
  intro e; rw [e, hk] at h; cases h

theorem moreNames_other {r : List Tok} (h : cur r ≠ "COMMA") : (moreNames r).2 = r := by
  match r with
  | [] => rfl
  | [t] =>
    have : t.kind ≠ "COMMA" := h
    simp [moreNames, this]
  | t :: u :: s =>
    have : t.kind ≠ "COMMA" := h
    simp [moreNames, this]

theorem lambdaHead_group {e t w} {c : Tok} {rest : List Tok} (h : D .expr e t w) (hc : c.kind = "RPAREN")
    (hr : cur rest ≠ "DOUBLE_ARROW") : lambdaHead (w ++ c :: rest) = none := by
  rcases first_lemma h with ⟨-, h0⟩ | ⟨a, x, rfl, -⟩
  · exact h0.elim
  unfold lambdaHead
  by_cases ha : a.kind = "IDENTIFIER"
  swap
  · rw [if_neg (by exact ha)]
  rw [if_pos (by exact ha)]
  have had : adv (a :: x ++ c :: rest) = x ++ c :: rest := adv_c ha (by decide) _
  rw [had]
  cases x with
  | nil =>
    have hm : (moreNames (c :: rest)).2 = c :: rest := moreNames_other (by rw [cur_c, hc]; decide)
    simp only [List.nil_append]
    rw [hm, cur_c, if_pos hc, adv_c hc (by decide), if_neg hr]
  | cons b x =>
    have hb := second_lemma h trivial a b x rfl ha
    simp only [mark, Bool.or_eq_false_iff, decide_eq_false_iff_not] at hb
    have hm : (moreNames (b :: x ++ c :: rest)).2 = b :: x ++ c :: rest := moreNames_other hb.1.1.1
    simp only
    rw [hm, if_neg (by exact hb.1.1.2)]

theorem cp_group {e t w} {o c : Tok} (ho : o.kind = "LPAREN") (hd : D .expr e t w) (ih : Cp .expr e t w)
    (hc : c.kind = "RPAREN") : Cp .prim e {} (o :: w ++ [c]) := by
  intro rest hf
  have hs : o :: w ++ [c] ++ rest = o :: (w ++ c :: rest) := by simp
  rw [hs]
  have e1 := (ih (c :: rest) (FE.of hc rfl)).1
  refine Ev.mk ?_
  filter_upwards [e1] with n e1
  show stepPrim (parse n) _ = _
  rw [prim_lparen ho]
  unfold stepGroup
  rw [if_neg (expr_not rfl (expr_cur hd _)), lambdaHead_group hd hc hf.arrow]
  dsimp only
  rw [e1, ok_bind]
  dsimp only
  rw [consume_c hc (by decide), ok_bind]
  rfl

theorem lam_FE {t : Tail} {rest : List Tok} (h : FP { lam := true, noElse := t.noElse } rest) : FE t rest :=
  ⟨(h.lam rfl).1, (h.lam rfl).2.1, h.arrow, h.noElse, (h.lam rfl).2.2⟩

theorem cp_lam0 {e t w} {o c a : Tok} (ho : o.kind = "LPAREN") (hc : c.kind = "RPAREN") (ha : a.kind = "DOUBLE_ARROW")
    (ih : Cp .expr e t w) : Cp .prim (.lam [] e) { lam := true, noElse := t.noElse } (o :: c :: a :: w) := by
  intro rest hf
  have e1 := (ih rest (lam_FE hf)).1
  refine Ev.mk ?_
  filter_upwards [e1] with n e1
  show stepPrim (parse n) (o :: c :: a :: (w ++ rest)) = _
  rw [prim_lparen ho]
  unfold stepGroup
  rw [cur_c, if_pos hc, adv_c hc (by decide), cur_c, if_pos ha, adv_c ha (by decide), e1, ok_bind]
  rfl

theorem params_more {ps wp} (h : Params ps wp) {c : Tok} (hc : c.kind = "RPAREN") (r : List Tok) :
    ∃ t w, wp = t :: w ∧ t.kind = "IDENTIFIER" ∧ ps = t.val :: (moreNames (w ++ c :: r)).1 ∧
      (moreNames (w ++ c :: r)).2 = c :: r := by
  induction h with
  | @one t ht =>
    refine ⟨t, [], rfl, ht, ?_, ?_⟩
    · cases r <;> simp [moreNames, hc]
    · cases r <;> simp [moreNames, hc]
  | @comma t k ht hk => exact ⟨t, [k], rfl, ht, by simp [moreNames, hk, hc], by simp [moreNames, hk, hc]⟩
  | @cons t k ps w ht hk _ ih =>
    obtain ⟨t', w', rfl, ht', rfl, h2⟩ := ih
    refine ⟨t, k :: t' :: w', rfl, ht, ?_, ?_⟩
    · simp [moreNames, hk, ht']
    · simp [moreNames, hk, ht', h2]

theorem cp_lam {ps wp e t w} {o c a : Tok} (ho : o.kind = "LPAREN") (hp : Params ps wp) (hc : c.kind = "RPAREN")
    (ha : a.kind = "DOUBLE_ARROW") (ih : Cp .expr e t w) :
    Cp .prim (.lam ps e) { lam := true, noElse := t.noElse } (o :: wp ++ c :: a :: w) := by
  intro rest hf
  have hs : o :: wp ++ c :: a :: w ++ rest = o :: (wp ++ c :: a :: (w ++ rest)) := by simp
  rw [hs]
  have e1 := (ih rest (lam_FE hf)).1
  obtain ⟨t', w', rfl, ht', rfl, h2⟩ := params_more hp hc (a :: (w ++ rest))
  have hl : lambdaHead (t' :: w' ++ c :: a :: (w ++ rest)) =
      some (t'.val :: (moreNames (w' ++ c :: a :: (w ++ rest))).1, w ++ rest) := by
    unfold lambdaHead
    rw [if_pos (by exact ht')]
    have had : adv (t' :: w' ++ c :: a :: (w ++ rest)) = w' ++ c :: a :: (w ++ rest) := adv_c ht' (by decide) _
    rw [had]
    simp only
    rw [h2, cur_c, if_pos hc, adv_c hc (by decide), cur_c, if_pos ha, adv_c ha (by decide)]
    rfl
  refine Ev.mk ?_
  filter_upwards [e1] with n e1
  show stepPrim (parse n) _ = _
  rw [prim_lparen ho]
  unfold stepGroup
  rw [if_neg (by show t'.kind ≠ _; rw [ht']; decide), hl]
  dsimp only
  rw [e1, ok_bind]
  rfl

theorem cp_list0 {o c : Tok} (ho : o.kind = "LBRACKET") (hc : c.kind = "RBRACKET") : Cp .prim (.list []) {} [o, c] := by
  intro rest hf
  refine Ev.mk (Eventually.of_forall fun n => ?_)
  show stepPrim (parse n) (o :: c :: rest) = _
  rw [prim_lbracket ho]
  unfold stepList
  rw [cur_c, if_pos hc, adv_c hc (by decide)]
  rfl

theorem seqTail_cur {k as u w} (h : D (.seqTail k) as u w) (rest : List Tok) :
    cur (w ++ rest) = k.close ∨ cur (w ++ rest) = "COMMA" := by
  rcases first_lemma h with ⟨-, h0⟩ | ⟨a, x, rfl, h0⟩
  · exact h0.elim
  · exact h0

theorem close_sep (k : SeqK) : sep k.close = true := by cases k <;> rfl

theorem cp_list {e t w es u w'} {o : Tok} (ho : o.kind = "LBRACKET") (hd : D .expr e t w) (ih : Cp .expr e t w)
    (hd' : D (.seqTail .elems) es u w') (ih' : Cp (.seqTail .elems) es u w') :
    Cp .prim (.list (e :: positional es)) {} (o :: w ++ w') := by
  intro rest hf
  have hs : o :: w ++ w' ++ rest = o :: (w ++ (w' ++ rest)) := by simp
  rw [hs]
  have hk := seqTail_cur hd' rest
  have hfe : ∀ t, FE t (w' ++ rest) := fun t => by
    rcases hk with h | h
    · exact FE.of h rfl
    · exact FE.of h rfl
  have e1 := (ih _ (hfe _)).1
  have e2 := ih' rest
  refine Ev.mk ?_
  filter_upwards [e1, e2] with n e1 e2
  show stepPrim (parse n) _ = _
  rw [prim_lbracket ho]
  unfold stepList
  rw [if_neg (expr_not rfl (expr_cur hd _)), e1, ok_bind]
  dsimp only
  have h1 : cur (w' ++ rest) ≠ "FOR" ∧ cur (w' ++ rest) ≠ "RANGE" := by
    rcases hk with h | h <;> (rw [h]; decide)
  rw [if_neg h1.1, if_neg h1.2, e2, ok_bind]
  rfl

theorem cp_range {a t w b u w'} {o r c : Tok} (ho : o.kind = "LBRACKET") (hd : D .expr a t w) (ih : Cp .expr a t w)
    (hr : r.kind = "RANGE") (ih' : Cp .expr b u w') (hc : c.kind = "RBRACKET") :
    Cp .prim (.range a b) {} (o :: w ++ r :: w' ++ [c]) := by
  intro rest hf
  have hs : o :: w ++ r :: w' ++ [c] ++ rest = o :: (w ++ r :: (w' ++ c :: rest)) := by simp
  rw [hs]
  have e1 := (ih (r :: (w' ++ c :: rest)) (FE.of hr rfl)).1
  have e2 := (ih' (c :: rest) (FE.of hc rfl)).1
  refine Ev.mk ?_
  filter_upwards [e1, e2] with n e1 e2
  show stepPrim (parse n) _ = _
  rw [prim_lbracket ho]
  unfold stepList
  rw [if_neg (expr_not rfl (expr_cur hd _)), e1, ok_bind]
  dsimp only
  rw [cur_c, if_neg (by rw [hr]; decide), if_pos hr, adv_c hr (by decide), e2, ok_bind]
  dsimp only
  rw [consume_c hc (by decide), ok_bind]
  rfl

theorem cp_comp {e t w cs u w'} {o c : Tok} (ho : o.kind = "LBRACKET") (hd : D .expr e t w) (ih : Cp .expr e t w)
    (hd' : D .clauses cs u w') (ih' : Cp .clauses cs u w') (hne : cs ≠ []) (hc : c.kind = "RBRACKET") :
    Cp .prim (.comp e cs) {} (o :: w ++ w' ++ [c]) := by
  intro rest hf
  have hs : o :: w ++ w' ++ [c] ++ rest = o :: (w ++ (w' ++ c :: rest)) := by simp
  rw [hs]
  have hk : cur (w' ++ c :: rest) = "FOR" := by
    rcases first_lemma hd' with ⟨-, h0⟩ | ⟨a, x, rfl, h0⟩
    · exact absurd h0 hne
    · exact h0
  have e1 := (ih _ (FE.of hk rfl)).1
  have e2 := ih' (c :: rest) hc
  refine Ev.mk ?_
  filter_upwards [e1, e2] with n e1 e2
  show stepPrim (parse n) _ = _
  rw [prim_lbracket ho]
  unfold stepList
  rw [if_neg (expr_not rfl (expr_cur hd _)), e1, ok_bind]
  dsimp only
  rw [if_pos hk, e2, ok_bind]
  dsimp only
  rw [consume_c hc (by decide), ok_bind]
  rfl

theorem cp_dict {es u w} {o : Tok} (ho : o.kind = "LBRACE") (ih : Cp (.seq .entries) es u w) :
    Cp .prim (.dict (named es)) {} (o :: w) := by
  intro rest hf
  have e1 := ih rest
  refine Ev.mk ?_
  filter_upwards [e1] with n e1
  show stepPrim (parse n) (o :: (w ++ rest)) = _
  unfold stepPrim
  rw [cur_c, if_neg (by rw [ho]; decide), if_neg (by rw [ho]; decide), if_neg (by rw [ho]; decide),
    if_neg (by rw [ho]; decide), if_pos ho, adv_c ho (by decide), e1, ok_bind]
  rfl

theorem cp_ifE {c b el els t w} {i : Tok} (hi : i.kind = "IF") (ih : Cp .ifParts (c, b, el, els) t w) :
    Cp .prim (.ifE c b el els) t (i :: w) := by
  intro rest hf
  have e1 := ih rest hf.noElse
  refine Ev.mk ?_
  filter_upwards [e1] with n e1
  show stepPrim (parse n) (i :: (w ++ rest)) = _
  unfold stepPrim
  rw [cur_c, if_neg (by rw [hi]; decide), if_neg (by rw [hi]; decide), if_neg (by rw [hi]; decide),
    if_neg (by rw [hi]; decide), if_neg (by rw [hi]; decide), if_pos hi, adv_c hi (by decide), e1, ok_bind]
  rfl

theorem cp_matchE {e t w as u w'} {m c n i d : Tok} (hm : m.kind = "MATCH") (ih : Cp .expr e t w) (hc : c.kind = "COLON")
    (hn : n.kind = "NEWLINE") (hi : i.kind = "INDENT") (ih' : Cp .arms as u w') (hd : d.kind = "DEDENT") :
    Cp .prim (.matchE e as) {} (m :: w ++ c :: n :: i :: w' ++ [d]) := by
  intro rest hf
  have hs : m :: w ++ c :: n :: i :: w' ++ [d] ++ rest = m :: (w ++ c :: n :: i :: (w' ++ d :: rest)) := by simp
  rw [hs]
  have e1 := (ih (c :: n :: i :: (w' ++ d :: rest)) (FE.of hc rfl)).1
  have e2 := (ih' (d :: rest) hd).1
  refine Ev.mk ?_
  filter_upwards [e1, e2] with k e1 e2
  show stepPrim (parse k) _ = _
  unfold stepPrim
  rw [cur_c, if_neg (by rw [hm]; decide), if_neg (by rw [hm]; decide), if_neg (by rw [hm]; decide),
    if_neg (by rw [hm]; decide), if_neg (by rw [hm]; decide), if_neg (by rw [hm]; decide), if_pos hm,
    adv_c hm (by decide)]
  unfold stepMatch
  rw [e1, ok_bind]
  dsimp only
  rw [consume_c hc (by decide), ok_bind]
  dsimp only
  rw [consume_c hn (by decide), ok_bind]
  dsimp only
  rw [consume_c hi (by decide), ok_bind]
  dsimp only
  rw [e2, ok_bind]
  dsimp only
  rw [consume_c hd (by decide), ok_bind]
  rfl

end Verif.Parser
