import Verif.Parser.Props

/-!
# Brackets, and the parser's rough edges (C142 - C145)
-/

namespace Verif.Parser

open Verif.Lexer Filter

/-! ### C142: assignment -/

/-- **C142.** `x = e` never updates a variable: whenever the statement parses it is a declaration of a new variable `x`,
also if `x` is declared already. (A declaration binds in the innermost scope, see C26.) -/
theorem C142_name_declares (n a : Tok) (r rest : List Tok) (x : Stmt) (hn : n.kind = "IDENTIFIER") (ha : a.kind = "ASSIGN")
    (h : parseStmt (n :: a :: r) = .ok (x, rest)) : ∃ e, x = .varDecl n.val none (some e) := by
  change stepStmt (parse _) (n :: a :: r) = _ at h
  rw [stepStmt_ident hn, if_neg (by rw [ha]; decide), if_pos ha] at h
  unfold stmtSimple at h
  obtain ⟨⟨e, s1⟩, -, h⟩ := bind_ok.1 h
  obtain ⟨s2, -, h⟩ := bind_ok.1 h
  cases pure_ok.1 h
  exact ⟨e, rfl⟩

/-- an assignment to anything but a bare name is an assignment -/
theorem C142_other_targets_partial (e e' : Expr) (u u' : Tail) (w w' rest : List Tok) (a nl : Tok) (hd : D .expr e u w)
    (hw : ∀ t, w = [t] → t.kind ≠ "IDENTIFIER") (hif : cur w ≠ "IF") (ha : a.kind = "ASSIGN") (hd' : D .expr e' u' w')
    (hnl : nl.kind = "NEWLINE") :
    parseStmt (w ++ a :: w' ++ nl :: rest) = .ok (.assign e e', rest) :=
  (C138_stmt _ _ _).2 ⟨_, w ++ a :: w' ++ [nl], by simp, .assign hd hw hif ha hd' (.newline hnl), trivial, by simp⟩

/-- `(x) = 1` -/
example : parseStmt [tk "LPAREN", nm "x", tk "RPAREN", tk "ASSIGN", num 1, tk "NEWLINE"] =
    .ok (.assign (.ident (nm "x").val) (numE 1), []) := by rfl

/-- `x = 1` -/
example : parseStmt [nm "x", tk "ASSIGN", num 1, tk "NEWLINE"] =
    .ok (.varDecl (nm "x").val none (some (numE 1)), []) := by rfl

/-! ### C143: match arms -/

theorem arms_name {n : Nat} {q k : Tok} (hq : q.kind = "IDENTIFIER") (hk : k.kind = "COLON") (r : List Tok) :
    stepArms (parse n) (q :: k :: r) = .error .syn := by
  have h1 : skipNl (q :: k :: r) = q :: k :: r := by
    rw [skipNl, if_neg (by rw [hq]; decide)]
  unfold stepArms
  rw [h1, cur_c, if_neg (by rw [hq]; decide), if_neg (by rw [hq]; decide)]
  rw [skipCase, cur_c, if_pos hq, adv_c hq (by decide), pattern, cur_c, if_neg (by rw [hk]; decide),
    if_neg (by rw [hk]; decide), if_neg (by rw [hk]; decide)]
  rfl

theorem expr_colon {e : Expr} {t : Tail} {w : List Tok} (h : D .expr e t w) {c : Tok} (hc : c.kind = "COLON")
    (r : List Tok) : ∃ N, ∀ n, N ≤ n → parse n .expr (w ++ c :: r) = .ok (e, c :: r) := by
  have h1 := (complete h (c :: r) (FE.sep (by show sep c.kind = true; rw [hc]; decide))).1
  exact eventually_atTop.1 h1

/-- **C143.** A match whose first arm has a bare name as its pattern is refused, whatever else it contains: the parser
takes a leading name for the word `case`. -/
theorem C143_bare_name_refused (m c nl i q k : Tok) (e : Expr) (t : Tail) (w r : List Tok) (hm : m.kind = "MATCH")
    (hd : D .expr e t w) (hc : c.kind = "COLON") (hnl : nl.kind = "NEWLINE") (hi : i.kind = "INDENT")
    (hq : q.kind = "IDENTIFIER") (hk : k.kind = "COLON") :
    parseExpr (m :: w ++ c :: nl :: i :: q :: k :: r) = .error .syn := by
  obtain ⟨N, hN⟩ := expr_colon hd hc (nl :: i :: q :: k :: r)
  have key : ∀ n, N + 1 ≤ n → parse (n + 5) .expr (m :: w ++ c :: nl :: i :: q :: k :: r) = .error .syn := by
    intro n hn
    obtain ⟨n, rfl⟩ : ∃ k, n = k + 1 := ⟨n - 1, by omega⟩
    have hp : parse (n + 1 + 1) .prim (m :: w ++ c :: nl :: i :: q :: k :: r) = .error .syn := by
      show stepPrim (parse (n + 1)) (m :: (w ++ c :: nl :: i :: q :: k :: r)) = _
      have hcur : cur (m :: (w ++ c :: nl :: i :: q :: k :: r)) = "MATCH" := hm
      unfold stepPrim
      rw [hcur, if_neg (by decide), if_neg (by decide), if_neg (by decide), if_neg (by decide), if_neg (by decide),
        if_neg (by decide), if_pos rfl, adv_c hm (by decide)]
      unfold stepMatch
      rw [hN (n + 1) (by omega), ok_bind]
      dsimp only
      rw [consume_c hc (by decide), ok_bind]
      dsimp only
      rw [consume_c hnl (by decide), ok_bind]
      dsimp only
      rw [consume_c hi (by decide), ok_bind]
      dsimp only
      rw [show parse (n + 1) .arms (q :: k :: r) = _ from arms_name (n := n) hq hk r]
      rfl
    have h1 : parse (n + 1 + 2) .post (m :: w ++ c :: nl :: i :: q :: k :: r) = .error .syn := by
      show stepPost (parse (n + 1 + 1)) _ = _
      unfold stepPost; rw [hp]; rfl
    have h2 : parse (n + 1 + 3) .unary (m :: w ++ c :: nl :: i :: q :: k :: r) = .error .syn := by
      show stepUnary (parse (n + 1 + 2)) (m :: (w ++ c :: nl :: i :: q :: k :: r)) = _
      unfold stepUnary
      rw [cur_c, hm, if_neg (by decide)]
      exact h1
    have h3 : parse (n + 1 + 4) (.bin 0) (m :: w ++ c :: nl :: i :: q :: k :: r) = .error .syn := by
      show stepBin (parse (n + 1 + 3)) 0 _ = _
      unfold stepBin; rw [h2]; rfl
    show stepExpr (parse (n + 1 + 4)) _ = _
    unfold stepExpr; rw [h3]; rfl
  have := key (N + 1 + depth (m :: w ++ c :: nl :: i :: q :: k :: r)) (by omega)
  rw [depth_any (by omega)] at this
  exact this

/-- with the word `case`, or with a literal, an arm is read as written -/
theorem C143_arms_partial (p : Pat) (q k o : Tok) (e : Expr) (t u : Tail) (w w' : List Tok) (as : List (Pat × Expr))
    (hp : IsPat p q) (hk : k.kind = "COLON") (hd : D .expr e t w) (ha : D .arms as u w')
    (ho : o.kind = "IDENTIFIER") : D .arms ((p, e) :: as) {} (o :: q :: k :: w ++ w') := .armCase ho hp hk hd ha

/-- `match 1:` with the arm `x: 2` -/
example : parseExpr [tk "MATCH", num 1, tk "COLON", tk "NEWLINE", tk "INDENT", nm "x", tk "COLON", num 2, tk "NEWLINE",
    tk "DEDENT"] = .error .syn := by rfl

/-- `match 1:` with the arm `case x: 2` -/
example : parseExpr [tk "MATCH", num 1, tk "COLON", tk "NEWLINE", tk "INDENT", nm "case", nm "x", tk "COLON", num 2,
    tk "NEWLINE", tk "DEDENT"] = .ok (.matchE (numE 1) [(.ident (nm "x").val, numE 2)], []) := by rfl

/-! ### C144: a value that ends with an indented block -/

theorem expr_before_name {e : Expr} {t : Tail} {w : List Tok} (h : D .expr e t w) {n : Tok} (hn : n.kind = "IDENTIFIER")
    (r : List Tok) : ∃ N, ∀ m, N ≤ m → parse m .expr (w ++ n :: r) = .ok (e, n :: r) := by
  have h1 := (complete h (n :: r) (FE.sep (by show sep n.kind = true; rw [hn]; decide))).1
  exact eventually_atTop.1 h1

/-- **C144.** The value of a variable cannot be an expression that ends with an indented block (`if`/`else` or `match`),
unless the statement is the last of its block: the next line, if it begins with a name, is refused. The lexer puts no
`NEWLINE` after the end of an indented block. -/
theorem C144_block_value_refused (x a n : Tok) (e : Expr) (t : Tail) (w r : List Tok) (hx : x.kind = "IDENTIFIER")
    (ha : a.kind = "ASSIGN") (hd : D .expr e t w) (hn : n.kind = "IDENTIFIER") :
    parseStmt (x :: a :: w ++ n :: r) = .error .syn := by
  obtain ⟨N, hN⟩ := expr_before_name hd hn r
  have key : ∀ m, N ≤ m → parse (m + 1) .stmt (x :: a :: w ++ n :: r) = .error .syn := by
    intro m hm
    show stepStmt (parse m) (x :: a :: (w ++ n :: r)) = _
    rw [stepStmt_ident hx, if_neg (by rw [ha]; decide), if_pos ha]
    unfold stmtSimple
    rw [adv_c hx (by decide), adv_c ha (by decide), hN m hm, ok_bind]
    dsimp only
    unfold terminator
    rw [cur_c, hn]
    rfl
  have := key (N + depth (x :: a :: w ++ n :: r)) (by omega)
  rw [depth_any (by omega)] at this
  exact this

/-- as the last statement it is accepted -/
theorem C144_block_value_last_partial (x a d : Tok) (e : Expr) (t : Tail) (w r : List Tok) (hx : x.kind = "IDENTIFIER")
    (ha : a.kind = "ASSIGN") (hd : D .expr e t w) (hdd : d.kind = "DEDENT") :
    parseStmt (x :: a :: w ++ d :: r) = .ok (.varDecl x.val none (some e), d :: r) :=
  (C138_stmt _ _ _).2 ⟨_, x :: a :: w ++ [], by simp, .simple hx ha hd .none, .inr (.inl hdd), by simp⟩

/-- `x = if 1: 2 else: 3`, with indented blocks, and then `y = 4` -/
example : parseBlock [tk "INDENT", nm "x", tk "ASSIGN", tk "IF", num 1, tk "COLON", tk "NEWLINE", tk "INDENT", num 2,
    tk "NEWLINE", tk "DEDENT", tk "ELSE", tk "COLON", tk "NEWLINE", tk "INDENT", num 3, tk "NEWLINE", tk "DEDENT",
    nm "y", tk "ASSIGN", num 4, tk "NEWLINE", tk "DEDENT"] = .error .syn := by rfl

/-- the same without the last line -/
example : ∃ b, parseBlock [tk "INDENT", nm "x", tk "ASSIGN", tk "IF", num 1, tk "COLON", tk "NEWLINE", tk "INDENT", num 2,
    tk "NEWLINE", tk "DEDENT", tk "ELSE", tk "COLON", tk "NEWLINE", tk "INDENT", num 3, tk "NEWLINE", tk "DEDENT",
    tk "DEDENT"] = .ok (b, []) := ⟨_, rfl⟩

/-! ### C145: brackets -/

/-- the closing token for an opening one -/
def closer (k : String) : Option String :=
  if k = "LPAREN" then some "RPAREN" else if k = "LBRACKET" then some "RBRACKET"
  else if k = "LBRACE" then some "RBRACE" else if k = "INDENT" then some "DEDENT" else none

/-- closing tokens -/
def isCloser (k : String) : Bool := k = "RPAREN" || k = "RBRACKET" || k = "RBRACE" || k = "DEDENT"

/-- one token read by a bracket checker: `st` has the closing tokens that are still owed, innermost first -/
def bstep (st : List String) (k : String) : Option (List String) :=
  match closer k with
  | some c => some (c :: st)
  | none => if isCloser k then (match st with | c :: st => if c = k then some st else none | [] => none) else some st

/-- a bracket checker -/
def brackets (st : List String) : List Tok → Option (List String)
  | [] => some st
  | t :: w => (bstep st t.kind).bind (brackets · w)

/-- in `w` every bracket is closed by its own kind, properly nested -/
def Matched (w : List Tok) : Prop := brackets [] w = some []

theorem brackets_append (st : List String) (u v : List Tok) :
    brackets st (u ++ v) = (brackets st u).bind (brackets · v) := by
  induction u generalizing st with
  | nil => rfl
  | cons t u ih =>
    simp only [List.cons_append, brackets]
    cases bstep st t.kind with
    | none => rfl
    | some s => exact ih s

theorem bstep_open {st : List String} {k c : String} (h : closer k = some c) : bstep st k = some (c :: st) := by
  simp [bstep, h]

theorem bstep_close {st : List String} {k : String} (h : closer k = none) (h' : isCloser k = true) :
    bstep (k :: st) k = some st := by
  simp [bstep, h, h']

theorem bstep_other {st : List String} {k : String} (h : closer k = none) (h' : isCloser k = false) :
    bstep st k = some st := by
  simp [bstep, h, h']

/-- the closing token a phrase of this kind ends with, without having its opening one -/
def owed : Sym → List String
  | .tyTail lt => if lt then [] else ["RBRACKET"]
  | .seq k => [k.close]
  | .seqTail k => [k.close]
  | _ => []

theorem other_mem {l : List String} (hl : ∀ k ∈ l, closer k = none ∧ isCloser k = false) {k : String} (h : k ∈ l)
    (st : List String) : bstep st k = some st := bstep_other (hl k h).1 (hl k h).2

theorem bstep_name {k : String} (h : isName k = true) (st : List String) : bstep st k = some st := by
  refine other_mem (l := "IDENTIFIER" :: typeKinds) (by decide) ?_ st
  simpa [isName] using h

theorem bstep_lit {k : String} (h : isLit k = true) (st : List String) : bstep st k = some st := by
  refine other_mem (l := ["INT_LITERAL", "FLOAT_LITERAL", "STRING_LITERAL", "BOOL_LITERAL"]) (by decide) ?_ st
  simpa [isLit, or_assoc] using h

theorem bstep_op {k : String} {p : Nat} (h : (k, p) ∈ opLevel) (st : List String) : bstep st k = some st := by
  have : ∀ a ∈ opLevel, closer a.1 = none ∧ isCloser a.1 = false := by decide
  exact bstep_other (this _ h).1 (this _ h).2

theorem brackets_term {b : Stop} {w : List Tok} (h : Term b w) (st : List String) : brackets st w = some st := by
  cases h with
  | newline h => simp [brackets, h]; exact bstep_other (by decide) (by decide)
  | semi h => simp [brackets, h]; exact bstep_other (by decide) (by decide)
  | none => rfl

theorem brackets_params {ps : List Name} {w : List Tok} (h : Params ps w) (st : List String) :
    brackets st w = some st := by
  have hi : ∀ st, bstep st "IDENTIFIER" = some st := fun st => bstep_other (by decide) (by decide)
  have hc : ∀ st, bstep st "COMMA" = some st := fun st => bstep_other (by decide) (by decide)
  induction h with
  | one h => simp [brackets, h, hi]
  | comma h h' => simp [brackets, h, h', hi, hc]
  | cons h h' _ ih => simp [brackets, h, h', hi, hc, ih]

theorem bstep_pat {p : Pat} {q : Tok} (h : IsPat p q) (st : List String) : bstep st q.kind = some st := by
  cases h with
  | wild h => rw [h]; exact bstep_other (by decide) (by decide)
  | lit h => exact bstep_lit h st
  | ident h => rw [h]; exact bstep_other (by decide) (by decide)

/-- neither `with` nor `python` occurs -/
def noWP (w : List Tok) : Bool := w.all fun t => t.kind ≠ "WITH" && t.kind ≠ "PYTHON"

theorem noWP_append (u v : List Tok) : noWP (u ++ v) = (noWP u && noWP v) := by simp [noWP]
theorem noWP_cons (t : Tok) (v : List Tok) :
    noWP (t :: v) = (decide (t.kind ≠ "WITH") && decide (t.kind ≠ "PYTHON") && noWP v) := by simp [noWP]

theorem bstep_closeK (k : SeqK) (st : List String) : bstep (k.close :: st) k.close = some st := by
  cases k <;> exact bstep_close (by decide) (by decide)

theorem b_o0 (st : List String) : bstep st "LPAREN" = some ("RPAREN" :: st) := bstep_open (by decide)
theorem b_c0 (st : List String) : bstep ("RPAREN" :: st) "RPAREN" = some st := bstep_close (by decide) (by decide)
theorem b_o1 (st : List String) : bstep st "LBRACKET" = some ("RBRACKET" :: st) := bstep_open (by decide)
theorem b_c1 (st : List String) : bstep ("RBRACKET" :: st) "RBRACKET" = some st := bstep_close (by decide) (by decide)
theorem b_o2 (st : List String) : bstep st "LBRACE" = some ("RBRACE" :: st) := bstep_open (by decide)
theorem b_c2 (st : List String) : bstep ("RBRACE" :: st) "RBRACE" = some st := bstep_close (by decide) (by decide)
theorem b_o3 (st : List String) : bstep st "INDENT" = some ("DEDENT" :: st) := bstep_open (by decide)
theorem b_c3 (st : List String) : bstep ("DEDENT" :: st) "DEDENT" = some st := bstep_close (by decide) (by decide)
theorem b_identifier (st : List String) : bstep st "IDENTIFIER" = some st := bstep_other (by decide) (by decide)
theorem b_comma (st : List String) : bstep st "COMMA" = some st := bstep_other (by decide) (by decide)
theorem b_question (st : List String) : bstep st "QUESTION" = some st := bstep_other (by decide) (by decide)
theorem b_lt (st : List String) : bstep st "LT" = some st := bstep_other (by decide) (by decide)
theorem b_gt (st : List String) : bstep st "GT" = some st := bstep_other (by decide) (by decide)
theorem b_if (st : List String) : bstep st "IF" = some st := bstep_other (by decide) (by decide)
theorem b_else (st : List String) : bstep st "ELSE" = some st := bstep_other (by decide) (by decide)
theorem b_not (st : List String) : bstep st "NOT" = some st := bstep_other (by decide) (by decide)
theorem b_minus (st : List String) : bstep st "MINUS" = some st := bstep_other (by decide) (by decide)
theorem b_dot (st : List String) : bstep st "DOT" = some st := bstep_other (by decide) (by decide)
theorem b_double_arrow (st : List String) : bstep st "DOUBLE_ARROW" = some st := bstep_other (by decide) (by decide)
theorem b_range (st : List String) : bstep st "RANGE" = some st := bstep_other (by decide) (by decide)
theorem b_match (st : List String) : bstep st "MATCH" = some st := bstep_other (by decide) (by decide)
theorem b_colon (st : List String) : bstep st "COLON" = some st := bstep_other (by decide) (by decide)
theorem b_newline (st : List String) : bstep st "NEWLINE" = some st := bstep_other (by decide) (by decide)
theorem b_assign (st : List String) : bstep st "ASSIGN" = some st := bstep_other (by decide) (by decide)
theorem b_string_literal (st : List String) : bstep st "STRING_LITERAL" = some st := bstep_other (by decide) (by decide)
theorem b_for (st : List String) : bstep st "FOR" = some st := bstep_other (by decide) (by decide)
theorem b_in (st : List String) : bstep st "IN" = some st := bstep_other (by decide) (by decide)
theorem b_elif (st : List String) : bstep st "ELIF" = some st := bstep_other (by decide) (by decide)
theorem b_let (st : List String) : bstep st "LET" = some st := bstep_other (by decide) (by decide)
theorem b_require (st : List String) : bstep st "REQUIRE" = some st := bstep_other (by decide) (by decide)
theorem b_assert (st : List String) : bstep st "ASSERT" = some st := bstep_other (by decide) (by decide)
theorem b_emit (st : List String) : bstep st "EMIT" = some st := bstep_other (by decide) (by decide)
theorem b_pass (st : List String) : bstep st "PASS" = some st := bstep_other (by decide) (by decide)
theorem b_return (st : List String) : bstep st "RETURN" = some st := bstep_other (by decide) (by decide)
theorem b_as (st : List String) : bstep st "AS" = some st := bstep_other (by decide) (by decide)

macro "brk" : tactic => `(tactic| (
  intro hw st
  simp_all [brackets, brackets_append, owed, SeqK.close, noWP_append, noWP_cons, bstep_name, bstep_lit, bstep_pat,
    bstep_closeK, brackets_term, brackets_params, b_o0, b_c0, b_o1, b_c1, b_o2, b_c2, b_o3, b_c3, b_identifier, b_comma, b_question, b_lt, b_gt, b_if, b_else, b_not, b_minus, b_dot, b_double_arrow, b_range, b_match, b_colon, b_newline, b_assign, b_string_literal, b_for, b_in, b_elif, b_let, b_require, b_assert, b_emit, b_pass, b_return, b_as]))

theorem brackets_D {s : Sym} {v : Val s} {t : Tail} {w : List Tok} (h : D s v t w) :
    noWP w = true → ∀ st, brackets (owed s ++ st) w = some st := by
  induction h
  case op hp _ _ _ _ ih ih' =>
    intro hw st
    simp only [noWP_append, noWP_cons, Bool.and_eq_true] at hw
    simp only [owed, List.nil_append] at ih ih' ⊢
    rw [brackets_append, ih hw.1, Option.bind_some, brackets, bstep_op hp, Option.bind_some, ih' hw.2.2]
  all_goals try (brk; done)
  case unary hk _ _ => rcases hk with hk | hk <;> brk
  case itemEntry hk _ _ _ => rcases hk with hk | hk <;> brk
  case lam hp _ _ _ _ => have ht := brackets_params hp; brk
  case seq0 k _ _ => cases k <;> brk
  case seqEnd k _ _ => cases k <;> brk
  case seqComma k _ _ _ _ => cases k <;> brk
  case arm hp _ _ _ _ _ => have ht := bstep_pat hp; brk
  case armCase hp _ _ _ _ _ => have ht := bstep_pat hp; brk
  all_goals
    have ht := brackets_term ‹Term _ _›
    brk

/-- **C145.** In every text that the parser accepts as a block, an expression or a statement, brackets, braces and
indentation match and are properly nested, if the words `with` and `python` do not occur. -/
theorem C145_brackets_match_partial (toks rest : List Tok) :
    (∀ b, parseBlock toks = .ok (b, rest) → ∃ w, toks = w ++ rest ∧ (noWP w = true → Matched w)) ∧
    (∀ e, parseExpr toks = .ok (e, rest) → ∃ w, toks = w ++ rest ∧ (noWP w = true → Matched w)) ∧
    (∀ x, parseStmt toks = .ok (x, rest) → ∃ w, toks = w ++ rest ∧ (noWP w = true → Matched w)) := by
  refine ⟨fun b h => ?_, fun b h => ?_, fun b h => ?_⟩
  · obtain ⟨w, t, hw, hd, -⟩ := sound _ _ _ _ _ h
    exact ⟨w, hw, fun h => brackets_D hd h []⟩
  · obtain ⟨w, t, hw, hd, -⟩ := sound _ _ _ _ _ h
    exact ⟨w, hw, fun h => brackets_D hd h []⟩
  · obtain ⟨w, t, hw, hd, -⟩ := sound _ _ _ _ _ h
    exact ⟨w, hw, fun h => brackets_D hd h []⟩

/-- `emit x with (}` is accepted: the token after `with` is not looked at -/
theorem C145_with_any_bracket : ∃ toks x, parseStmt toks = .ok (x, []) ∧ ¬ Matched toks :=
  ⟨[tk "EMIT", nm "x", tk "WITH", tk "LPAREN", tk "RBRACE"], _, rfl, by unfold Matched; decide⟩

/-- and so is every unfinished `python {` block at the end of the text, whatever it contains -/
theorem C145_python_unfinished (p o : Tok) (w : List Tok) (hp : p.kind = "PYTHON") (ho : o.kind = "LBRACE")
    (hw : ∀ t ∈ w, t.kind ≠ "RBRACE" ∧ t.kind ≠ "EOF") :
    parseStmt (p :: o :: w) = .ok (.py (w.map (·.lexeme)), []) := by
  have hb : Unclosed w := by
    have bal : ∀ (v : List Tok), (∀ t ∈ v, t.kind ≠ "RBRACE" ∧ t.kind ≠ "EOF" ∧ t.kind ≠ "LBRACE") → Balanced v := by
      intro v hv
      induction v with
      | nil => exact .nil
      | cons t v ih =>
        have := hv t (by simp)
        exact .other this.2.2 this.1 this.2.1 (ih fun u hu => hv u (by simp [hu]))
    have key : ∀ (w v : List Tok), (∀ t ∈ w, t.kind ≠ "RBRACE" ∧ t.kind ≠ "EOF") →
        (∀ t ∈ v, t.kind ≠ "RBRACE" ∧ t.kind ≠ "EOF" ∧ t.kind ≠ "LBRACE") → Unclosed (v ++ w) := by
      intro w
      induction w with
      | nil => intro v _ hv; rw [List.append_nil]; exact .balanced (bal v hv)
      | cons t w ih =>
        intro v hw hv
        by_cases ht : t.kind = "LBRACE"
        · exact .more (bal v hv) ht (ih [] (fun u hu => hw u (by simp [hu])) (by simp))
        · have h1 := ih (v ++ [t]) (fun u hu => hw u (by simp [hu])) (by
            intro u hu
            rcases List.mem_append.1 hu with hu | hu
            · exact hv u hu
            · rw [List.mem_singleton.1 hu]; exact ⟨(hw t (by simp)).1, (hw t (by simp)).2, ht⟩)
          simpa using h1
    exact key w [] hw (by simp)
  exact (C138_stmt _ _ _).2 ⟨_, p :: o :: w, by simp, .pyOpen hp ho hb, by simp [stopOK, cur], by simp⟩

/-- a nested text that meets the hypothesis of `C145_brackets_match_partial` -/
example : Matched [tk "INDENT", nm "x", tk "ASSIGN", tk "LBRACKET", tk "LPAREN", num 1, tk "RPAREN", tk "RBRACKET",
    tk "NEWLINE", tk "DEDENT"] := by unfold Matched; decide

end Verif.Parser
