import Verif.Parser.Complete3
import Verif.Parser.Terminate

/-!
# What the DSL parser accepts and what it makes of it (C137 - C141)

The specification is the grammar `D` of `Verif/Parser/Grammar.lean`: `D .expr e t w` says that the tokens `w` are an
expression with syntax tree `e`, and likewise for types, statements and blocks.
-/

namespace Verif.Parser

open Verif.Lexer Filter

theorem rank_le (s : Sym) : rank s ≤ 7 := by cases s <;> simp [rank]

theorem depth_enough (s : Sym) (toks : List Tok) : parse (depth toks) s toks ≠ .error .fuel := by
  refine term_all _ s toks ?_
  have := rank_le s
  unfold measure depth
  omega

theorem depth_any {s : Sym} {toks : List Tok} {n : Nat} (h : depth toks ≤ n) :
    parse n s toks = parse (depth toks) s toks := parse_mono h s toks (depth_enough s toks)

theorem Ev.depth {s : Sym} {toks : List Tok} {R : Val s × List Tok} (h : Ev s toks R) :
    parse (depth toks) s toks = .ok R := by
  obtain ⟨n, hn⟩ := h.get
  have h1 := parse_mono (Nat.le_max_left n (Parser.depth toks)) s toks
  rw [depth_any (Nat.le_max_right _ _)] at h1
  exact h1.ok hn

/-- **C137.** On every list of tokens every entry of the parser ends, with a syntax tree or a `ParserError`: a recursion
depth of `12 * n + 12` is enough for `n` tokens, and a greater bound changes nothing. -/
theorem C137_terminates (s : Sym) (toks : List Tok) :
    (parse (12 * toks.length + 12) s toks = .error .syn ∨ ∃ r, parse (12 * toks.length + 12) s toks = .ok r) ∧
    ∀ n, 12 * toks.length + 12 ≤ n → parse n s toks = parse (12 * toks.length + 12) s toks := by
  refine ⟨?_, fun n hn => depth_any hn⟩
  have h := depth_enough s toks
  change parse (12 * toks.length + 12) s toks ≠ _ at h
  cases hp : parse (12 * toks.length + 12) s toks with
  | ok r => exact .inr ⟨r, rfl⟩
  | error e =>
    cases e with
    | syn => exact .inl rfl
    | fuel => exact absurd hp h

/-- the tokens after which an expression surely ends -/
def exprEnd : List String :=
  ["EOF", "NEWLINE", "INDENT", "DEDENT", "RBRACE", "SEMICOLON", "RPAREN", "RBRACKET", "COMMA", "COLON", "ASSIGN",
   "RANGE", "FOR", "AS", "WITH"]

theorem exprEnd_sep {k : String} (h : k ∈ exprEnd) : sep k = true := by
  have : ∀ k ∈ exprEnd, sep k = true := by decide
  exact this k h

/-- **C138, blocks.** Parsing a block succeeds exactly if the text begins with a block of the grammar, and gives its
tree and the tokens after it. -/
theorem C138_block (toks rest : List Tok) (b : Block) :
    parseBlock toks = .ok (b, rest) ↔ ∃ t w, toks = w ++ rest ∧ D .block b t w := by
  constructor
  · intro h
    obtain ⟨w, t, hw, hd, -⟩ := sound _ _ _ _ _ h
    exact ⟨t, w, hw, hd⟩
  · rintro ⟨t, w, rfl, hd⟩
    exact (complete hd rest).depth

/-- **C138, statements.** Parsing a statement succeeds exactly if the text begins with a statement of the grammar that
may end there: a statement without a terminator of its own has to be followed by the end of its block, and an `if`
without `else` not by `else` or `elif`. -/
theorem C138_stmt (toks rest : List Tok) (x : Stmt) :
    parseStmt toks = .ok (x, rest) ↔ ∃ t w, toks = w ++ rest ∧ D .stmt x t w ∧ stopOK t.stop rest ∧
      (t.noElse = true → cur rest ≠ "ELSE" ∧ cur rest ≠ "ELIF") := by
  constructor
  · intro h
    obtain ⟨w, t, hw, hd, hf, hn⟩ := sound _ _ _ _ _ h
    exact ⟨t, w, hw, hd, hf, hn⟩
  · rintro ⟨t, w, rfl, hd, hs, hn⟩
    exact (complete hd rest hs hn).depth

/-- **C138, expressions.** Up to a token that ends every expression, the parser accepts exactly the expressions of the
grammar and builds their trees. -/
theorem C138_expr (toks rest : List Tok) (e : Expr) (hr : cur rest ∈ exprEnd) :
    parseExpr toks = .ok (e, rest) ↔ ∃ t w, toks = w ++ rest ∧ D .expr e t w := by
  constructor
  · intro h
    obtain ⟨w, t, hw, hd, -⟩ := sound _ _ _ _ _ h
    exact ⟨t, w, hw, hd⟩
  · rintro ⟨t, w, rfl, hd⟩
    exact (complete hd rest (FE.sep (exprEnd_sep hr))).1.depth

/-- whatever follows, an accepted expression is one of the grammar -/
theorem C138_expr_sound (toks rest : List Tok) (e : Expr) (h : parseExpr toks = .ok (e, rest)) :
    ∃ t w, toks = w ++ rest ∧ D .expr e t w := by
  obtain ⟨w, t, hw, hd, -⟩ := sound _ _ _ _ _ h
  exact ⟨t, w, hw, hd⟩

/-- **C138, types.** -/
theorem C138_type (toks rest : List Tok) (v : Ty) (h1 : cur rest ≠ "LBRACKET") (h2 : cur rest ≠ "LT")
    (h3 : cur rest ≠ "QUESTION") :
    parseType toks = .ok (v, rest) ↔ ∃ t w, toks = w ++ rest ∧ D .ty v t w := by
  constructor
  · intro h
    obtain ⟨w, t, hw, hd, -⟩ := sound _ _ _ _ _ h
    exact ⟨t, w, hw, hd⟩
  · rintro ⟨t, w, rfl, hd⟩
    have := complete hd rest h1 h2
    rw [tyRes_plain _ h3] at this
    exact this.depth

/-- **C139.** The grammar is unambiguous: a text has at most one reading as an expression, a type, a statement or a
block. -/
theorem C139_unambiguous (w : List Tok) :
    (∀ e e' t t', D .expr e t w → D .expr e' t' w → e = e') ∧
    (∀ v v' t t', D .ty v t w → D .ty v' t' w → v = v') ∧
    (∀ x x' t t', D .stmt x t w → D .stmt x' t' w → x = x') ∧
    (∀ b b' t t', D .block b t w → D .block b' t' w → b = b') := by
  have hs : ∀ b : Stop, stopOK b [] := by intro b; cases b <;> simp [stopOK, cur]
  refine ⟨fun e e' t t' h h' => ?_, fun v v' t t' h h' => ?_, fun x x' t t' h h' => ?_, fun b b' t t' h h' => ?_⟩
  · have a := (C138_expr (w ++ []) [] e (by decide)).2 ⟨t, w, rfl, h⟩
    have b := (C138_expr (w ++ []) [] e' (by decide)).2 ⟨t', w, rfl, h'⟩
    rw [a] at b; cases b; rfl
  · have a := (C138_type (w ++ []) [] v (by decide) (by decide) (by decide)).2 ⟨t, w, rfl, h⟩
    have b := (C138_type (w ++ []) [] v' (by decide) (by decide) (by decide)).2 ⟨t', w, rfl, h'⟩
    rw [a] at b; cases b; rfl
  · have a := (C138_stmt (w ++ []) [] x).2 ⟨t, w, rfl, h, hs _, fun _ => by decide⟩
    have b := (C138_stmt (w ++ []) [] x').2 ⟨t', w, rfl, h', hs _, fun _ => by decide⟩
    rw [a] at b; cases b; rfl
  · have a := (C138_block (w ++ []) [] b).2 ⟨t, w, rfl, h⟩
    have b := (C138_block (w ++ []) [] b').2 ⟨t', w, rfl, h'⟩
    rw [a] at b; cases b; rfl

/-! ### precedence -/

/-- an operand: an expression that needs no parentheses beside any operator (`D .unary`) and does not end with a
lambda, which would take in what follows -/
def Operand (e : Expr) (w : List Tok) : Prop := ∃ t, D .unary e t w ∧ t.lam = false

theorem bin_expr {m : Nat} {e : Expr} {t : Tail} {w : List Tok} (h : D (.bin m) e t w) (rest : List Tok)
    (hr : cur rest ∈ exprEnd) : parseExpr (w ++ rest) = .ok (e, rest) :=
  (C138_expr _ _ _ hr).2 ⟨t, w, rfl, .expr (bin_weaken h (Nat.zero_le _))⟩

/-- **C140.** `x o y p z` groups to the left if `o` binds at least as tight as `p`, except that `**` groups to the
right; otherwise to the right. For all operands and operators. -/
theorem C140_precedence (x y z : Expr) (wx wy wz rest : List Tok) (o p : Tok) (lo lp : Nat)
    (hx : Operand x wx) (hy : Operand y wy) (hz : Operand z wz) (ho : (o.kind, lo) ∈ opLevel)
    (hp : (p.kind, lp) ∈ opLevel) (hr : cur rest ∈ exprEnd) :
    parseExpr (wx ++ o :: wy ++ p :: wz ++ rest) =
      .ok (if lp < lo ∨ (lp = lo ∧ p.kind ≠ "DOUBLE_STAR") then Expr.bin p.kind (.bin o.kind x y) z
           else Expr.bin o.kind x (.bin p.kind y z), rest) := by
  obtain ⟨tx, hx, hlx⟩ := hx
  obtain ⟨ty, hy, hly⟩ := hy
  obtain ⟨tz, hz, hlz⟩ := hz
  have lv : ∀ a ∈ opLevel, ∀ b ∈ opLevel, a.2 = b.2 → a.1 = "DOUBLE_STAR" → b.1 = "DOUBLE_STAR" := by decide
  have mx : ∀ a ∈ opLevel, a.2 ≤ 7 ∧ (a.1 = "DOUBLE_STAR" ↔ a.2 = 7) := by decide
  have mo := mx _ ho
  have mp := mx _ hp
  dsimp only at mo mp
  split
  · rename_i hc
    have hle : leftLevel p.kind lp ≤ lo := by
      unfold leftLevel
      split
      · rename_i hs
        have := mp.2.1 hs
        rcases hc with hc | ⟨rfl, hn⟩
        · omega
        · exact absurd hs hn
      · omega
    have h1 : D (.bin (leftLevel p.kind lp)) (.bin o.kind x y) ty (wx ++ o :: wy) :=
      .op ho hle (.operand hx) hlx (.operand hy)
    exact bin_expr (.op (m := 0) hp (Nat.zero_le _) h1 hly (.operand hz)) rest hr
  · rename_i hc
    have hle : rightLevel o.kind lo ≤ lp := by
      unfold rightLevel
      split
      · omega
      · rename_i hs
        rcases Nat.lt_or_ge lo lp with h | h
        · omega
        · exfalso
          apply hc
          rcases Nat.lt_or_ge lp lo with h' | h'
          · exact .inl h'
          · refine .inr ⟨by omega, fun hq => hs ?_⟩
            exact lv _ hp _ ho (by dsimp only; omega) hq
    have h1 : D (.bin (rightLevel o.kind lo)) (.bin p.kind y z) tz (wy ++ p :: wz) :=
      .op hp hle (.operand hy) hly (.operand hz)
    have h2 := bin_expr (.op (m := 0) ho (Nat.zero_le _) (.operand hx) hlx h1) rest hr
    simpa using h2

/-- the text `x₀ o₁ x₁ o₂ x₂ ...` -/
def chainToks (w₀ : List Tok) (l : List (Tok × Expr × List Tok)) : List Tok :=
  l.foldl (fun w x => w ++ x.1 :: x.2.2) w₀

/-- **C140, chains.** A chain of any length of operators of the same level, other than `**`, groups to the left. -/
theorem C140_left_chain (x : Expr) (w : List Tok) (l : List (Tok × Expr × List Tok)) (p : Nat) (rest : List Tok)
    (hx : Operand x w) (hl : ∀ a ∈ l, (a.1.kind, p) ∈ opLevel ∧ a.1.kind ≠ "DOUBLE_STAR" ∧ Operand a.2.1 a.2.2)
    (hr : cur rest ∈ exprEnd) :
    parseExpr (chainToks w l ++ rest) = .ok (l.foldl (fun e a => Expr.bin a.1.kind e a.2.1) x, rest) := by
  have key : ∀ (l : List (Tok × Expr × List Tok)) x w, (∃ t, D (.bin p) x t w ∧ t.lam = false) →
      (∀ a ∈ l, (a.1.kind, p) ∈ opLevel ∧ a.1.kind ≠ "DOUBLE_STAR" ∧ Operand a.2.1 a.2.2) →
      ∃ t, D (.bin p) (l.foldl (fun e a => Expr.bin a.1.kind e a.2.1) x) t (chainToks w l) ∧ t.lam = false := by
    intro l
    induction l with
    | nil => exact fun x w h _ => h
    | cons a l ih =>
      rintro x w ⟨t, hd, ht⟩ hl
      obtain ⟨h1, h2, t', h3, h4⟩ := hl a (by simp)
      refine ih _ _ ⟨t', ?_, h4⟩ fun b hb => hl b (by simp [hb])
      refine .op h1 (Nat.le_refl _) ?_ ht (.operand h3)
      rw [leftLevel, if_neg h2]
      exact hd
  obtain ⟨t, hd, ht⟩ := hx
  obtain ⟨t', hd', -⟩ := key l x w ⟨t, .operand hd, ht⟩ hl
  exact bin_expr hd' rest hr

/-- **C140, powers.** A chain of any length of `**` groups to the right. -/
theorem C140_power_chain (l : List (Expr × List Tok × Tok)) (z : Expr) (w rest : List Tok) (hz : Operand z w)
    (hl : ∀ a ∈ l, a.2.2.kind = "DOUBLE_STAR" ∧ Operand a.1 a.2.1) (hr : cur rest ∈ exprEnd) :
    parseExpr (l.foldr (fun a u => a.2.1 ++ a.2.2 :: u) w ++ rest) =
      .ok (l.foldr (fun a e => Expr.bin "DOUBLE_STAR" a.1 e) z, rest) := by
  have key : ∃ t, D (.bin 7) (l.foldr (fun a e => Expr.bin "DOUBLE_STAR" a.1 e) z) t
      (l.foldr (fun a u => a.2.1 ++ a.2.2 :: u) w) := by
    induction l with
    | nil => obtain ⟨t, h, -⟩ := hz; exact ⟨t, .operand h⟩
    | cons a l ih =>
      obtain ⟨t, h⟩ := ih fun b hb => hl b (by simp [hb])
      obtain ⟨h1, t', h2, h3⟩ := hl a (by simp)
      refine ⟨t, ?_⟩
      have hm : (a.2.2.kind, 7) ∈ opLevel := by rw [h1]; decide
      have := D.op (m := 7) (p := 7) (o := a.2.2) hm (Nat.le_refl _) (.operand h2) h3
        (by rw [rightLevel, if_pos h1]; exact h)
      rw [h1] at this
      exact this
  obtain ⟨t, h⟩ := key
  exact bin_expr h rest hr

/-- **C140, unary operators** bind tighter than every binary operator, `**` included: `-x ** y` is `(-x) ** y` and
`not x == y` is `(not x) == y`. -/
theorem C140_unary_first (x y : Expr) (wx wy rest : List Tok) (u o : Tok) (lo : Nat)
    (hu : u.kind = "NOT" ∨ u.kind = "MINUS") (hx : Operand x wx) (hy : Operand y wy) (ho : (o.kind, lo) ∈ opLevel)
    (hr : cur rest ∈ exprEnd) :
    parseExpr (u :: wx ++ o :: wy ++ rest) = .ok (.bin o.kind (.un u.kind x) y, rest) := by
  obtain ⟨tx, hx, hlx⟩ := hx
  obtain ⟨ty, hy, -⟩ := hy
  exact bin_expr (.op (m := 0) ho (Nat.zero_le _) (.operand (.unary hu hx)) hlx (.operand hy)) rest hr

/-- **C140, conditionals** bind weakest and group to the right: `a if c else b if d else e`, for all expressions whose
operators are binary or tighter. -/
theorem C140_conditional (a c b d e : Expr) (ta tc tb td te : Tail) (wa wc wb wd we rest : List Tok) (i l i' l' : Tok)
    (ha : D (.bin 0) a ta wa) (hla : ta.lam = false) (hc : D (.bin 0) c tc wc) (hlc : tc.noElse = false)
    (hb : D (.bin 0) b tb wb) (hlb : tb.lam = false) (hd : D (.bin 0) d td wd) (hld : td.noElse = false)
    (he : D (.bin 0) e te we) (hi : i.kind = "IF") (hl : l.kind = "ELSE") (hi' : i'.kind = "IF") (hl' : l'.kind = "ELSE")
    (hr : cur rest ∈ exprEnd) :
    parseExpr (wa ++ i :: wc ++ l :: (wb ++ i' :: wd ++ l' :: we) ++ rest) =
      .ok (.cond c a (.cond d b e), rest) :=
  (C138_expr _ _ _ hr).2 ⟨te, _, rfl, .cond ha hla hi hc hlc hl (.cond hb hlb hi' hd hld hl' (.expr he))⟩

/-- **C141.** Parentheses change nothing by themselves: `(w)` has a reading exactly if `w` has, the same one. -/
theorem C141_parentheses (w rest : List Tok) (o c : Tok) (e : Expr) (ho : o.kind = "LPAREN") (hc : c.kind = "RPAREN")
    (hr : cur rest ∈ exprEnd) :
    parseExpr w = .ok (e, []) → parseExpr (o :: w ++ c :: rest) = .ok (e, rest) := by
  intro h
  obtain ⟨t, w', hw, hd⟩ := (C138_expr w [] e (by decide)).1 h
  rw [List.append_nil] at hw
  subst hw
  have := bin_expr (.operand (m := 0) (.unPost (.prim (.group ho hd hc)))) rest hr
  simpa using this

/-- **C141, trees.** With parentheses every tree of operators can be written: parenthesised operands combine with any
operator, whatever they are made of. -/
theorem C141_compose (u v rest : List Tok) (o c o' c' p : Tok) (x y : Expr) (lp : Nat) (ho : o.kind = "LPAREN")
    (hc : c.kind = "RPAREN") (ho' : o'.kind = "LPAREN") (hc' : c'.kind = "RPAREN") (hp : (p.kind, lp) ∈ opLevel)
    (hu : parseExpr u = .ok (x, [])) (hv : parseExpr v = .ok (y, [])) (hr : cur rest ∈ exprEnd) :
    parseExpr (o :: u ++ c :: p :: o' :: v ++ c' :: rest) = .ok (.bin p.kind x y, rest) := by
  obtain ⟨t, w, hw, hd⟩ := (C138_expr u [] x (by decide)).1 hu
  obtain ⟨t', w', hw', hd'⟩ := (C138_expr v [] y (by decide)).1 hv
  rw [List.append_nil] at hw hw'
  subst hw hw'
  have := bin_expr (.op (m := 0) hp (Nat.zero_le _) (.operand (.unPost (.prim (.group ho hd hc)))) rfl
    (.operand (.unPost (.prim (.group ho' hd' hc'))))) rest hr
  simpa using this

/-! ### the hypotheses are met -/

/-- a token with no value -/
def tk (k : String) : Tok := ⟨k, .none, []⟩
/-- a name -/
def nm (s : String) : Tok := ⟨"IDENTIFIER", .text s.toList, s.toList⟩
/-- a number -/
def num (n : Nat) : Tok := ⟨"INT_LITERAL", .int n, []⟩
/-- its tree -/
def numE (n : Nat) : Expr := .lit "INT_LITERAL" (.int n)

theorem operand_num (n : Nat) : Operand (numE n) [num n] :=
  ⟨{}, .unPost (.prim (.lit (t := num n) (by show isLit "INT_LITERAL" = true; decide))), rfl⟩

/-- `1 + 2 * 3` -/
example : parseExpr ([num 1] ++ tk "PLUS" :: [num 2] ++ tk "STAR" :: [num 3] ++ [tk "EOF"]) =
    .ok (.bin "PLUS" (numE 1) (.bin "STAR" (numE 2) (numE 3)), [tk "EOF"]) :=
  C140_precedence _ _ _ _ _ _ _ _ _ 5 6 (operand_num 1) (operand_num 2) (operand_num 3) (by decide) (by decide) (by decide)

/-- `1 - 2 + 3` -/
example : parseExpr [num 1, tk "MINUS", num 2, tk "PLUS", num 3] =
    .ok (.bin "PLUS" (.bin "MINUS" (numE 1) (numE 2)) (numE 3), []) := by rfl

/-- `x if 1 else f(y, k=2)[3].m` -/
example : parseExpr [nm "x", tk "IF", num 1, tk "ELSE", nm "f", tk "LPAREN", nm "y", tk "COMMA", nm "k", tk "ASSIGN", num 2,
      tk "RPAREN", tk "LBRACKET", num 3, tk "RBRACKET", tk "DOT", nm "m", tk "EOF"] =
    .ok (.cond (numE 1) (.ident (nm "x").val)
      (.member (.index (.call (.ident (nm "f").val) [.ident (nm "y").val] [((nm "k").val, numE 2)]) (numE 3)) (nm "m").val),
      [tk "EOF"]) := by rfl

/-- a block of two statements -/
example : ∃ b, parseBlock [tk "NEWLINE", tk "INDENT", nm "x", tk "ASSIGN", num 1, tk "NEWLINE", tk "EMIT", nm "x", tk "NEWLINE",
    tk "DEDENT", tk "EOF"] = .ok (b, [tk "EOF"]) := ⟨_, rfl⟩

/-- texts that are refused -/
example : parseExpr [num 1, tk "PLUS"] = .error .syn := by rfl

end Verif.Parser
