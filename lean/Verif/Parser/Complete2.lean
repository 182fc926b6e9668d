import Verif.Parser.Complete

/-! Completeness, continued: sequences, clauses, conditionals, arms, blocks and statements. -/

namespace Verif.Parser

open Verif.Lexer Filter

theorem ok_bind' {α β : Type} (a : α) (f : α → Except PErr β) : (pure a >>= f : Except PErr β) = f a := rfl

theorem item_FE {k : SeqK} {rest : List Tok} (h : cur rest = "COMMA" ∨ cur rest = k.close) (t : Tail) : FE t rest := by
  rcases h with h | h
  · exact FE.of h rfl
  · exact FE.of h (close_sep k)

theorem peek1_expr {e t w} (h : D .expr e t w) {rest : List Tok} {k : String} (hk : mark k = true)
    (hr : cur rest ≠ k) : ¬ (cur (w ++ rest) = "IDENTIFIER" ∧ peek1 (w ++ rest) = k) := by
  rintro ⟨h1, h2⟩
  rcases first_lemma h with ⟨-, h0⟩ | ⟨a, x, rfl, -⟩
  · exact h0.elim
  cases x with
  | nil =>
    cases rest with
    | nil => exact hr h2
    | cons b r => exact hr h2
  | cons b x =>
    have := second_lemma h trivial a b x rfl h1
    have h2 : b.kind = k := h2
    rw [h2, hk] at this
    cases this

theorem cp_itemExpr {k e t w} (hk : k ≠ .entries) (hd : D .expr e t w) (ih : Cp .expr e t w) :
    Cp (.item k) (none, e) t w := by
  intro rest hr
  have e1 := (ih rest (item_FE hr _)).1
  refine Ev.mk ?_
  filter_upwards [e1] with n e1
  show stepItem (parse n) k _ = _
  unfold stepItem
  cases k with
  | args =>
    dsimp only
    rw [if_neg (peek1_expr hd rfl (by rcases hr with h | h <;> (rw [h]; decide))), e1, ok_bind]
    rfl
  | elems => dsimp only; rw [e1, ok_bind]; rfl
  | entries => exact absurd rfl hk

theorem cp_itemNamed {e t w} {i a : Tok} (hi : i.kind = "IDENTIFIER") (ha : a.kind = "ASSIGN") (ih : Cp .expr e t w) :
    Cp (.item .args) (some i.val, e) t (i :: a :: w) := by
  intro rest hr
  have e1 := (ih rest (item_FE hr _)).1
  refine Ev.mk ?_
  filter_upwards [e1] with n e1
  show stepItem (parse n) .args (i :: a :: (w ++ rest)) = _
  unfold stepItem
  dsimp only
  rw [if_pos ⟨hi, ha⟩, adv_c hi (by decide), adv_c ha (by decide), e1, ok_bind]
  rfl

theorem cp_itemEntry {e t w} {i a : Tok} (hi : i.kind = "STRING_LITERAL" ∨ i.kind = "IDENTIFIER")
    (ha : a.kind = "COLON") (ih : Cp .expr e t w) : Cp (.item .entries) (some i.val, e) t (i :: a :: w) := by
  intro rest hr
  have e1 := (ih rest (item_FE hr _)).1
  refine Ev.mk ?_
  filter_upwards [e1] with n e1
  show stepItem (parse n) .entries (i :: a :: (w ++ rest)) = _
  unfold stepItem
  dsimp only
  rw [cur_c, if_pos hi, adv_c rfl (by rcases hi with h | h <;> rw [h] <;> decide), consume_c ha (by decide), ok_bind]
  dsimp only
  rw [e1, ok_bind]
  rfl

theorem item_cur {k a t w} (h : D (.item k) a t w) (rest : List Tok) : cur (w ++ rest) ≠ k.close := by
  rcases first_lemma h with ⟨-, h0⟩ | ⟨a, x, rfl, h0⟩
  · exact h0.elim
  · exact expr_not (by cases k <;> rfl) (s := a :: x ++ rest) h0

theorem seqTail_cur' {k as u w} (h : D (.seqTail k) as u w) (rest : List Tok) :
    cur (w ++ rest) = "COMMA" ∨ cur (w ++ rest) = k.close := (seqTail_cur h rest).symm

theorem cp_seq0 {k} {c : Tok} (hc : c.kind = k.close) : Cp (.seq k) [] {} [c] := by
  intro rest
  refine Ev.mk (Eventually.of_forall fun n => ?_)
  show stepSeq (parse n) k (c :: rest) = _
  unfold stepSeq
  rw [cur_c, if_pos hc, adv_c hc (close_ne_eof k)]
  rfl

theorem cp_seq {k a t w as u w'} (hd : D (.item k) a t w) (ih : Cp (.item k) a t w) (hd' : D (.seqTail k) as u w')
    (ih' : Cp (.seqTail k) as u w') : Cp (.seq k) (a :: as) {} (w ++ w') := by
  intro rest
  rw [List.append_assoc]
  have e1 := ih _ (seqTail_cur' hd' rest)
  have e2 := ih' rest
  refine Ev.mk ?_
  filter_upwards [e1, e2] with n e1 e2
  show stepSeq (parse n) k _ = _
  unfold stepSeq
  rw [if_neg (item_cur hd _), e1, ok_bind]
  dsimp only
  rw [e2, ok_bind]
  rfl

theorem cp_seqEnd {k} {c : Tok} (hc : c.kind = k.close) : Cp (.seqTail k) [] {} [c] := by
  intro rest
  refine Ev.mk (Eventually.of_forall fun n => ?_)
  show stepSeqTail (parse n) k (c :: rest) = _
  unfold stepSeqTail
  rw [cur_c, if_neg (by rw [hc]; cases k <;> decide), consume_c hc (close_ne_eof k)]
  rfl

theorem cp_seqComma {k} {m c : Tok} (hm : m.kind = "COMMA") (hc : c.kind = k.close) : Cp (.seqTail k) [] {} [m, c] := by
  intro rest
  refine Ev.mk (Eventually.of_forall fun n => ?_)
  show stepSeqTail (parse n) k (m :: c :: rest) = _
  unfold stepSeqTail
  rw [cur_c, if_pos hm, adv_c hm (by decide), cur_c, if_pos hc, adv_c hc (close_ne_eof k)]
  rfl

theorem cp_seqMore {k a t w as u w'} {m : Tok} (hm : m.kind = "COMMA") (hd : D (.item k) a t w) (ih : Cp (.item k) a t w)
    (hd' : D (.seqTail k) as u w') (ih' : Cp (.seqTail k) as u w') : Cp (.seqTail k) (a :: as) {} (m :: w ++ w') := by
  intro rest
  have hs : m :: w ++ w' ++ rest = m :: (w ++ (w' ++ rest)) := by simp
  rw [hs]
  have e1 := ih _ (seqTail_cur' hd' rest)
  have e2 := ih' rest
  refine Ev.mk ?_
  filter_upwards [e1, e2] with n e1 e2
  show stepSeqTail (parse n) k _ = _
  unfold stepSeqTail
  rw [cur_c, if_pos hm, adv_c hm (by decide), if_neg (item_cur hd _), e1, ok_bind]
  dsimp only
  rw [e2, ok_bind]
  rfl

/-! ### comprehensions -/

theorem FE.any {rest : List Tok} (h : FE { noElse := true } rest) (t : Tail) : FE t rest :=
  ⟨h.prec, h.post, h.arrow, fun _ => h.noElse rfl, h.ifOK⟩

theorem cp_conds0 : Cp .conds [] {} [] := by
  intro rest hr
  have hne : cur rest ≠ "IF" := by rcases hr with h | h <;> (rw [h]; decide)
  refine ⟨?_, ?_, ?_⟩
  · refine Ev.mk (Eventually.of_forall fun n => ?_)
    show stepConds (parse n) rest = _
    unfold stepConds
    rw [if_neg hne]
    rfl
  · rcases hr with h | h <;> exact FE.of h rfl
  · show cur rest ≠ _
    rcases hr with h | h <;> (rw [h]; decide)

theorem cp_condsMore {c t w cs u w'} {i : Tok} (hi : i.kind = "IF") (ih : Cp .expr c t w) (ih' : Cp .conds cs u w') :
    Cp .conds (c :: cs) {} (i :: w ++ w') := by
  intro rest hr
  have hs : i :: w ++ w' ++ rest = i :: (w ++ (w' ++ rest)) := by simp
  rw [hs]
  obtain ⟨e2, hf, hel⟩ := ih' rest hr
  obtain ⟨e1, hif⟩ := ih (w' ++ rest) (hf.any _)
  refine ⟨?_, ⟨by rw [cur_c, hi]; rfl, by rw [cur_c, hi]; rfl, by rw [cur_c, hi]; decide,
    fun _ => by rw [cur_c, hi]; decide, ?_⟩, by rw [cur_c, hi]; decide⟩
  · refine Ev.mk ?_
    filter_upwards [e1, e2] with n e1 e2
    show stepConds (parse n) _ = _
    unfold stepConds
    rw [cur_c, if_pos hi, adv_c hi (by decide), e1, ok_bind]
    dsimp only
    rw [e2, ok_bind]
    rfl
  · intro _
    rw [adv_c hi (by decide)]
    exact hif hel

theorem cp_clauses0 : Cp .clauses [] {} [] := by
  intro rest hr
  refine Ev.mk (Eventually.of_forall fun n => ?_)
  show stepClauses (parse n) rest = _
  unfold stepClauses
  rw [if_neg (by rw [hr]; decide)]
  rfl

theorem cp_clause {it t w cs u w' rest u' w''} {o v i : Tok} (ho : o.kind = "FOR") (hv : v.kind = "IDENTIFIER")
    (hi : i.kind = "IN") (ih : Cp .expr it t w) (ih' : Cp .conds cs u w') (hd : D .clauses rest u' w'')
    (ih'' : Cp .clauses rest u' w'') : Cp .clauses (.mk v.val it cs :: rest) {} (o :: v :: i :: w ++ w' ++ w'') := by
  intro r hr
  have hs : o :: v :: i :: w ++ w' ++ w'' ++ r = o :: v :: i :: (w ++ (w' ++ (w'' ++ r))) := by simp
  rw [hs]
  have e3 := ih'' r hr
  have hk : cur (w'' ++ r) = "RBRACKET" ∨ cur (w'' ++ r) = "FOR" := by
    rcases first_lemma hd with ⟨rfl, -⟩ | ⟨a, x, rfl, h0⟩
    · exact .inl hr
    · exact .inr h0
  obtain ⟨e2, hf, -⟩ := ih' _ hk
  have e1 := (ih _ (hf.any _)).1
  refine Ev.mk ?_
  filter_upwards [e1, e2, e3] with n e1 e2 e3
  show stepClauses (parse n) _ = _
  unfold stepClauses
  rw [cur_c, if_pos ho, adv_c ho (by decide), consume_c hv (by decide), ok_bind]
  dsimp only
  rw [consume_c hi (by decide), ok_bind]
  dsimp only
  rw [e1, ok_bind]
  dsimp only
  rw [e2, ok_bind]
  dsimp only
  rw [e3, ok_bind]
  rfl

/-! ### if -/

theorem cp_elifs0 : Cp .elifs [] {} [] := by
  intro rest hr
  refine Ev.mk (Eventually.of_forall fun n => ?_)
  show stepElifs (parse n) rest = _
  unfold stepElifs
  rw [if_neg hr]
  rfl

theorem cp_elif {c t w b u w' rest u' w''} {o k : Tok} (ho : o.kind = "ELIF") (ih : Cp .expr c t w) (hk : k.kind = "COLON")
    (ih' : Cp .block b u w') (ih'' : Cp .elifs rest u' w'') :
    Cp .elifs ((c, b) :: rest) {} (o :: w ++ k :: w' ++ w'') := by
  intro r hr
  have hs : o :: w ++ k :: w' ++ w'' ++ r = o :: (w ++ k :: (w' ++ (w'' ++ r))) := by simp
  rw [hs]
  have e1 := (ih (k :: (w' ++ (w'' ++ r))) (FE.of hk rfl)).1
  have e2 := ih' (w'' ++ r)
  have e3 := ih'' r hr
  refine Ev.mk ?_
  filter_upwards [e1, e2, e3] with n e1 e2 e3
  show stepElifs (parse n) _ = _
  unfold stepElifs
  rw [cur_c, if_pos ho, adv_c ho (by decide), e1, ok_bind]
  dsimp only
  rw [consume_c hk (by decide), ok_bind]
  dsimp only
  rw [e2, ok_bind]
  dsimp only
  rw [e3, ok_bind]
  rfl

theorem cp_ifThen {c t w b u w' el u' w''} {k : Tok} (ih : Cp .expr c t w) (hk : k.kind = "COLON") (ih' : Cp .block b u w')
    (ih'' : Cp .elifs el u' w'') : Cp .ifParts (c, b, el, none) { noElse := true } (w ++ k :: w' ++ w'') := by
  intro r hr
  have hr := hr rfl
  have hs : w ++ k :: w' ++ w'' ++ r = w ++ k :: (w' ++ (w'' ++ r)) := by simp
  rw [hs]
  have e1 := (ih (k :: (w' ++ (w'' ++ r))) (FE.of hk rfl)).1
  have e2 := ih' (w'' ++ r)
  have e3 := ih'' r hr.2
  refine Ev.mk ?_
  filter_upwards [e1, e2, e3] with n e1 e2 e3
  show stepIfParts (parse n) _ = _
  unfold stepIfParts
  rw [e1, ok_bind]
  dsimp only
  rw [consume_c hk (by decide), ok_bind]
  dsimp only
  rw [e2, ok_bind]
  dsimp only
  rw [e3, ok_bind]
  dsimp only
  rw [if_neg hr.1]
  rfl

theorem cp_ifElse {c t w b u w' el u' w'' b' u'' w'''} {k e k' : Tok} (ih : Cp .expr c t w) (hk : k.kind = "COLON")
    (ih' : Cp .block b u w') (ih'' : Cp .elifs el u' w'') (he : e.kind = "ELSE") (hk' : k'.kind = "COLON")
    (ih3 : Cp .block b' u'' w''') : Cp .ifParts (c, b, el, some b') {} (w ++ k :: w' ++ w'' ++ e :: k' :: w''') := by
  intro r _
  have hs : w ++ k :: w' ++ w'' ++ e :: k' :: w''' ++ r = w ++ k :: (w' ++ (w'' ++ e :: k' :: (w''' ++ r))) := by simp
  rw [hs]
  have e1 := (ih (k :: (w' ++ (w'' ++ e :: k' :: (w''' ++ r)))) (FE.of hk rfl)).1
  have e2 := ih' (w'' ++ e :: k' :: (w''' ++ r))
  have e3 := ih'' (e :: k' :: (w''' ++ r)) (by rw [cur_c, he]; decide)
  have e4 := ih3 r
  refine Ev.mk ?_
  filter_upwards [e1, e2, e3, e4] with n e1 e2 e3 e4
  show stepIfParts (parse n) _ = _
  unfold stepIfParts
  rw [e1, ok_bind]
  dsimp only
  rw [consume_c hk (by decide), ok_bind]
  dsimp only
  rw [e2, ok_bind]
  dsimp only
  rw [e3, ok_bind]
  dsimp only
  rw [cur_c, if_pos he, adv_c he (by decide), consume_c hk' (by decide), ok_bind]
  dsimp only
  rw [e4, ok_bind]
  rfl

/-! ### match arms -/

theorem skipNl_nl {a : Tok} (h : a.kind = "NEWLINE") (r : List Tok) : skipNl (a :: r) = skipNl r := by
  simp [skipNl, h]

theorem skipNl_other {s : List Tok} (h : cur s ≠ "NEWLINE") : skipNl s = s := by
  cases s with
  | nil => rfl
  | cons a r =>
    have : a.kind ≠ "NEWLINE" := h
    simp [skipNl, this]

theorem stepArms_nl {f : ∀ s, P (Val s)} {a : Tok} (h : a.kind = "NEWLINE") {r : List Tok} (hr : cur r ≠ "EOF") :
    stepArms f (a :: r) = stepArms f r := by
  unfold stepArms
  rw [skipNl_nl h, if_neg (by rw [cur_c, h]; decide)]
  by_cases hd : cur r = "DEDENT"
  · rw [skipNl_other (by rw [hd]; decide), if_pos hd, if_pos (.inl hd)]
  · rw [if_neg (c := cur r = "DEDENT" ∨ cur r = "EOF") (fun e => e.elim hd hr)]

theorem arms_skip {s : List Tok} {R : Val .arms × List Tok} (h : Ev .arms s R) (hs : cur (skipNl s) ≠ "EOF") :
    Ev .arms (skipNl s) R := by
  induction s with
  | nil => exact h
  | cons a r ih =>
    by_cases ha : a.kind = "NEWLINE"
    · rw [skipNl_nl ha] at hs ⊢
      refine ih ?_ hs
      refine Ev.mk ?_
      filter_upwards [h.step] with n hn
      have hr : cur r ≠ "EOF" := by
        cases r with
        | nil => exact hs
        | cons b r =>
          intro e
          apply hs
          have : b.kind ≠ "NEWLINE" := by rw [show b.kind = "EOF" from e]; decide
          rw [skipNl_other (s := b :: r) this]
          exact e
      have : step (parse n) .arms (a :: r) = step (parse n) .arms r := stepArms_nl ha hr
      rw [← this]
      exact hn
    · rwa [skipNl_other (s := a :: r) ha]

theorem cp_arms0 : Cp .arms [] {} [] := by
  intro rest hr
  refine ⟨Ev.mk (Eventually.of_forall fun n => ?_), ?_⟩
  · show stepArms (parse n) rest = _
    unfold stepArms
    rw [if_pos (.inl hr)]
    rfl
  · show cur (skipNl rest) ≠ _
    rw [skipNl_other (by rw [hr]; decide), hr]; decide

theorem arms_cur {as u w} (h : D .arms as u w) {rest : List Tok} (hr : cur rest = "DEDENT") :
    cur (w ++ rest) ≠ "EOF" ∧ sep (cur (w ++ rest)) = true := by
  rcases first_lemma h with ⟨rfl, h0⟩ | ⟨a, x, rfl, h0⟩
  · rw [List.nil_append, hr]; decide
  · have h0 : a.kind = "NEWLINE" ∨ a.kind = "UNDERSCORE" ∨ isLit a.kind = true ∨ a.kind = "IDENTIFIER" := h0
    show a.kind ≠ "EOF" ∧ sep a.kind = true
    rcases h0 with h | h | h | h
    · rw [h]; decide
    · rw [h]; decide
    · simp only [isLit, Bool.or_eq_true, decide_eq_true_eq] at h
      rcases h with ((h | h) | h) | h <;> (rw [h]; decide)
    · rw [h]; decide

theorem cp_armsNl {as u w} {a : Tok} (ha : a.kind = "NEWLINE") (hd : D .arms as u w) (ih : Cp .arms as u w) :
    Cp .arms as {} (a :: w) := by
  intro rest hr
  obtain ⟨e1, h1⟩ := ih rest hr
  refine ⟨?_, ?_⟩
  · refine Ev.mk ?_
    filter_upwards [e1.step] with n hn
    show stepArms (parse n) (a :: (w ++ rest)) = _
    rw [stepArms_nl ha (arms_cur hd hr).1]
    exact hn
  · show cur (skipNl (a :: (w ++ rest))) ≠ _
    rw [skipNl_nl ha]
    exact h1

theorem pattern_c {p : Pat} {q : Tok} (h : IsPat p q) (r : List Tok) : pattern (q :: r) = .ok (p, r) := by
  unfold pattern
  cases h with
  | wild h => rw [cur_c, if_pos h, adv_c h (by decide)]
  | lit h =>
    have h' := h
    simp only [isLit, Bool.or_eq_true, decide_eq_true_eq] at h'
    rw [cur_c, if_neg (by rcases h' with ((h | h) | h) | h <;> (rw [h]; decide)), if_pos h, adv_c rfl (isLit_tok h)]
    rfl
  | ident h =>
    rw [cur_c, if_neg (by rw [h]; decide), if_neg (by rw [h]; decide), if_pos h, adv_c h (by decide)]
    rfl

theorem isPat_tok {p : Pat} {q : Tok} (h : IsPat p q) : q.kind ≠ "NEWLINE" ∧ q.kind ≠ "DEDENT" ∧ q.kind ≠ "EOF" := by
  cases h with
  | wild h => rw [h]; decide
  | lit h =>
    simp only [isLit, Bool.or_eq_true, decide_eq_true_eq] at h
    rcases h with ((h | h) | h) | h <;> (rw [h]; decide)
  | ident h => rw [h]; decide

theorem cp_arm {p e t w as u w'} {pre : List Tok} {q k : Tok} (hpre : pre = [] ∧ q.kind ≠ "IDENTIFIER" ∨
      ∃ o : Tok, pre = [o] ∧ o.kind = "IDENTIFIER") (hp : IsPat p q) (hk : k.kind = "COLON")
    (ih : Cp .expr e t w) (hd' : D .arms as u w') (ih' : Cp .arms as u w') :
    Cp .arms ((p, e) :: as) {} (pre ++ q :: k :: w ++ w') := by
  intro rest hr
  have hs : pre ++ q :: k :: w ++ w' ++ rest = pre ++ q :: k :: (w ++ (w' ++ rest)) := by simp
  rw [hs]
  obtain ⟨h1, h2, h3⟩ := isPat_tok hp
  have hcur : cur (pre ++ q :: k :: (w ++ (w' ++ rest))) ≠ "NEWLINE" ∧
      cur (pre ++ q :: k :: (w ++ (w' ++ rest))) ≠ "DEDENT" ∧ cur (pre ++ q :: k :: (w ++ (w' ++ rest))) ≠ "EOF" := by
    rcases hpre with ⟨rfl, -⟩ | ⟨o, rfl, ho⟩
    · exact ⟨h1, h2, h3⟩
    · show o.kind ≠ _ ∧ o.kind ≠ _ ∧ o.kind ≠ _
      rw [ho]; decide
  have hskip : skipCase (pre ++ q :: k :: (w ++ (w' ++ rest))) = q :: k :: (w ++ (w' ++ rest)) := by
    rcases hpre with ⟨rfl, hq⟩ | ⟨o, rfl, ho⟩
    · exact if_neg hq
    · show skipCase (o :: _) = _
      unfold skipCase
      rw [cur_c, if_pos ho, adv_c ho (by decide)]
      rfl
  obtain ⟨e2, h4⟩ := ih' rest hr
  have e2 := arms_skip e2 h4
  have e1 := (ih (w' ++ rest) (FE.sep (arms_cur hd' hr).2)).1
  refine ⟨?_, ?_⟩
  · refine Ev.mk ?_
    filter_upwards [e1, e2] with n e1 e2
    show stepArms (parse n) _ = _
    unfold stepArms
    rw [if_neg (fun h => h.elim hcur.2.1 hcur.2.2), skipNl_other hcur.1, if_neg hcur.2.1, hskip, pattern_c hp, ok_bind]
    dsimp only
    rw [consume_c hk (by decide), ok_bind]
    dsimp only
    rw [e1, ok_bind]
    dsimp only
    rw [e2, ok_bind]
    rfl
  · rw [skipNl_other hcur.1]
    exact hcur.2.2

/-! ### blocks -/

theorem cp_blockNl {b u w} {a : Tok} (ha : a.kind = "NEWLINE") (ih : Cp .block b u w) : Cp .block b {} (a :: w) := by
  intro rest
  refine Ev.mk ?_
  filter_upwards [(ih rest).step] with n hn
  have : stepBlock (parse n) (a :: (w ++ rest)) = stepBlock (parse n) (w ++ rest) := by
    unfold stepBlock
    rw [skipNl_nl ha]
  exact this.trans hn

theorem cp_indented {ss t w} {i d : Tok} (hi : i.kind = "INDENT") (ih : Cp (.stmts false) ss t w) (ht : t.stop ≠ .textEnd)
    (hd : d.kind = "DEDENT") : Cp .block (mkBlock ss) {} (i :: w ++ [d]) := by
  intro rest
  have hs : i :: w ++ [d] ++ rest = i :: (w ++ d :: rest) := by simp
  rw [hs]
  have e1 := ih (d :: rest) hd (by
    unfold stopOK
    rw [cur_c, hd]
    cases h : t.stop with
    | any => trivial
    | blockEnd => exact .inr (.inl rfl)
    | dedentEnd => exact .inr rfl
    | textEnd => exact absurd h ht)
  refine Ev.mk ?_
  filter_upwards [e1] with n e1
  show stepBlock (parse n) _ = _
  unfold stepBlock
  rw [skipNl_other (by rw [cur_c, hi]; decide), cur_c, if_neg (by rw [hi]; decide), consume_c hi (by decide), ok_bind]
  dsimp only
  rw [e1, ok_bind]
  dsimp only
  rw [consume_c hd (by decide), ok_bind]
  rfl

theorem cp_braced {ss t w} {i d : Tok} (hi : i.kind = "LBRACE") (ih : Cp (.stmts true) ss t w)
    (ht : t.stop = .any ∨ t.stop = .blockEnd) (hd : d.kind = "RBRACE") :
    Cp .block (mkBlock ss) {} (i :: w ++ [d]) := by
  intro rest
  have hs : i :: w ++ [d] ++ rest = i :: (w ++ d :: rest) := by simp
  rw [hs]
  have e1 := ih (d :: rest) hd (by
    unfold stopOK
    rw [cur_c, hd]
    rcases ht with h | h <;> rw [h]
    · trivial
    · exact .inr (.inr rfl))
  refine Ev.mk ?_
  filter_upwards [e1] with n e1
  show stepBlock (parse n) _ = _
  unfold stepBlock
  rw [skipNl_other (by rw [cur_c, hi]; decide), cur_c, if_pos hi, adv_c hi (by decide), e1, ok_bind]
  dsimp only
  rw [consume_c hd (by decide), ok_bind]
  rfl

theorem close_tok (c : Bool) : blockClose c ≠ "EOF" ∧ blockClose c ≠ "NEWLINE" ∧ blockClose c ≠ "ELSE" ∧
    blockClose c ≠ "ELIF" ∧ stmtFirst (blockClose c) = false := by cases c <;> decide

theorem cp_stmts0 {c} : Cp (.stmts c) [] {} [] := by
  intro rest hr _
  refine Ev.mk (Eventually.of_forall fun n => ?_)
  show stepStmts (parse n) c rest = _
  unfold stepStmts
  rw [if_pos (.inl hr)]
  rfl

theorem stmts_cur {c ss t w} (h : D (.stmts c) ss t w) {rest : List Tok} (hr : cur rest = blockClose c) :
    cur (w ++ rest) ≠ "EOF" ∧ cur (w ++ rest) ≠ "ELSE" ∧ cur (w ++ rest) ≠ "ELIF" := by
  rcases first_lemma h with ⟨rfl, h0⟩ | ⟨a, x, rfl, h0⟩
  · rw [List.nil_append, hr]
    have := close_tok c
    exact ⟨this.1, this.2.2.1, this.2.2.2.1⟩
  · have h0 : a.kind = "NEWLINE" ∨ stmtFirst a.kind = true := h0
    show a.kind ≠ _ ∧ a.kind ≠ _ ∧ a.kind ≠ _
    rcases h0 with h | h
    · rw [h]; decide
    · refine ⟨?_, ?_, ?_⟩ <;> (intro e; rw [e] at h; exact absurd h (by decide))

theorem cp_stmtsNl {c ss t w} {a : Tok} (ha : a.kind = "NEWLINE") (hd : D (.stmts c) ss t w) (ih : Cp (.stmts c) ss t w) :
    Cp (.stmts c) ss t (a :: w) := by
  intro rest hr hs
  refine Ev.mk ?_
  filter_upwards [(ih rest hr hs).step] with n hn
  have : stepStmts (parse n) c (a :: (w ++ rest)) = stepStmts (parse n) c (w ++ rest) := by
    have h1 := (stmts_cur hd hr).1
    unfold stepStmts
    have h2 := close_tok c
    rw [skipNl_nl ha, cur_c, if_neg (by rw [ha]; exact fun e => e.elim (fun e => h2.2.1 e.symm) (by decide))]
    by_cases hc : cur (w ++ rest) = blockClose c
    · rw [skipNl_other (by rw [hc]; exact h2.2.1), if_pos hc, if_pos (.inl hc)]
    · rw [if_neg (fun e : _ ∨ _ => e.elim hc h1)]
  exact this.trans hn

theorem stmt_cur {s t w} (h : D .stmt s t w) (rest : List Tok) : stmtFirst (cur (w ++ rest)) = true := by
  rcases first_lemma h with ⟨-, h0⟩ | ⟨a, x, rfl, h0⟩
  · exact h0.elim
  · exact h0

theorem stepStmts_stmt {f : ∀ s, P (Val s)} {c : Bool} {s : List Tok} (h : stmtFirst (cur s) = true) :
    stepStmts f c s = (do
      let (x, s1) ← f .stmt s
      let (xs, s2) ← f (.stmts c) s1
      pure (x :: xs, s2)) := by
  have h1 : cur s ≠ blockClose c := by
    intro e; rw [e] at h; exact absurd h (by simp [(close_tok c).2.2.2.2])
  have h2 : cur s ≠ "EOF" := by intro e; rw [e] at h; exact absurd h (by decide)
  have h3 : cur s ≠ "NEWLINE" := by intro e; rw [e] at h; exact absurd h (by decide)
  unfold stepStmts
  rw [if_neg (fun e => e.elim h1 h2), skipNl_other h3, if_neg h1]

theorem cp_stmtsMore {c s t w ss u w'} (hd : D .stmt s t w) (ih : Cp .stmt s t w) (ht : t.stop = .any)
    (hd' : D (.stmts c) ss u w') (ih' : Cp (.stmts c) ss u w') : Cp (.stmts c) (s :: ss) u (w ++ w') := by
  intro rest hr hs
  rw [List.append_assoc]
  have e1 := ih (w' ++ rest) (by rw [ht]; trivial) (fun _ => (stmts_cur hd' hr).2)
  have e2 := ih' rest hr hs
  refine Ev.mk ?_
  filter_upwards [e1, e2] with n e1 e2
  show stepStmts (parse n) c _ = _
  rw [stepStmts_stmt (stmt_cur hd _), e1, ok_bind]
  dsimp only
  rw [e2, ok_bind]
  rfl

theorem cp_stmtsLast {c s t w} (hd : D .stmt s t w) (ih : Cp .stmt s t w) : Cp (.stmts c) [s] { stop := t.stop } w := by
  intro rest hr hs
  have h := close_tok c
  have e1 := ih rest hs (fun _ => by rw [hr]; exact ⟨h.2.2.1, h.2.2.2.1⟩)
  have e2 := cp_stmts0 (c := c) rest hr trivial
  refine Ev.mk ?_
  filter_upwards [e1, e2] with n e1 e2
  show stepStmts (parse n) c _ = _
  rw [stepStmts_stmt (stmt_cur hd _), e1, ok_bind]
  dsimp only
  rw [show parse n (.stmts c) rest = _ from e2, ok_bind]
  rfl

end Verif.Parser
