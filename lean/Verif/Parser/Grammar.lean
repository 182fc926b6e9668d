import Verif.Parser.Model

/-!
# The grammar of the DSL

`D s v t w`: the tokens `w` are a phrase of kind `s` with syntax tree `v`. The grammar is written independently of
the parser's algorithm: binary operators are stratified by the precedence table, there is no look-ahead and no
backtracking. `t` records what must not come next if the phrase is to end there:
* `t.lam`: the phrase ends with the body of a lambda, which extends as far to the right as possible;
* `t.dot`: it ends with `.name`, so that an opening parenthesis would make it a method call;
* `t.noElse`: it ends with an `if` that has no `else`, so an `elif`/`else` that follows would belong to it;
* `t.stop`: it is a statement without its own terminator, which must be the last of its block.
-/

namespace Verif.Parser

open Verif.Lexer

/-- what may follow a statement -/
inductive Stop
  /-- anything -/
  | any
  /-- the end of the block or of the text -/
  | blockEnd
  /-- the end of an indented block or of the text -/
  | dedentEnd
  /-- the end of the text -/
  | textEnd
  deriving DecidableEq

/-- how a phrase ends -/
structure Tail where
  lam : Bool := false
  dot : Bool := false
  noElse : Bool := false
  stop : Stop := .any
  deriving DecidableEq

/-- level of an operator's left operand: for `**` anything that binds tighter than `**`, else the operator's level -/
def leftLevel (k : String) (p : Nat) : Nat := if k = "DOUBLE_STAR" then p + 1 else p

/-- level of its right operand: `**` groups to the right, all others to the left -/
def rightLevel (k : String) (p : Nat) : Nat := if k = "DOUBLE_STAR" then p else p + 1

/-- the documented precedence levels of the binary operators -/
def opLevel : List (String × Nat) :=
  [("OR", 1), ("AND", 2), ("EQ", 3), ("NE", 3), ("LT", 4), ("GT", 4), ("LE", 4), ("GE", 4), ("PLUS", 5),
   ("MINUS", 5), ("STAR", 6), ("SLASH", 6), ("DOUBLE_SLASH", 6), ("PERCENT", 6), ("DOUBLE_STAR", 7)]

/-- lambda parameters `a, b, c` with an optional comma at the end -/
inductive Params : List Name → List Tok → Prop
  | one {t : Tok} : t.kind = "IDENTIFIER" → Params [t.val] [t]
  | comma {t c : Tok} : t.kind = "IDENTIFIER" → c.kind = "COMMA" → Params [t.val] [t, c]
  | cons {t c : Tok} {ps w} : t.kind = "IDENTIFIER" → c.kind = "COMMA" → Params ps w →
      Params (t.val :: ps) (t :: c :: w)

/-- how a simple statement ends -/
inductive Term : Stop → List Tok → Prop
  | newline {t : Tok} : t.kind = "NEWLINE" → Term .any [t]
  | semi {t : Tok} : t.kind = "SEMICOLON" → Term .any [t]
  | none : Term .blockEnd []

/-- a match pattern -/
inductive IsPat : Pat → Tok → Prop
  | wild {t : Tok} : t.kind = "UNDERSCORE" → IsPat .wild t
  | lit {t : Tok} : isLit t.kind = true → IsPat (.lit t.kind t.val) t
  | ident {t : Tok} : t.kind = "IDENTIFIER" → IsPat (.ident t.val) t

/-- a text in which braces match -/
inductive Balanced : List Tok → Prop
  | nil : Balanced []
  | other {t : Tok} {w} : t.kind ≠ "LBRACE" → t.kind ≠ "RBRACE" → t.kind ≠ "EOF" → Balanced w → Balanced (t :: w)
  | braces {a b : Tok} {v w} : a.kind = "LBRACE" → Balanced v → b.kind = "RBRACE" → Balanced w →
      Balanced (a :: v ++ b :: w)

/-- a text in which every closing brace matches, but perhaps not every opening one -/
inductive Unclosed : List Tok → Prop
  | balanced {w} : Balanced w → Unclosed w
  | more {a : Tok} {v w} : Balanced v → a.kind = "LBRACE" → Unclosed w → Unclosed (v ++ a :: w)

/-- the grammar -/
inductive D : (s : Sym) → Val s → Tail → List Tok → Prop
  -- types
  | tyName {t : Tok} : isName t.kind = true → D .ty (.simple t.val) {} [t]
  | tyGen {t o : Tok} {a as u u' w w'} : isName t.kind = true → o.kind = "LBRACKET" → D .ty a u w →
      D (.tyTail false) as u' w' → D .ty (.generic t.val (a :: as)) {} (t :: o :: w ++ w')
  | tyGenLt {t o : Tok} {a as u u' w w'} : isName t.kind = true → o.kind = "LT" → D .ty a u w →
      D (.tyTail true) as u' w' → D .ty (.generic t.val (a :: as)) {} (t :: o :: w ++ w')
  | tyOpt {q : Tok} {a u w} : D .ty a u w → (∀ b, a ≠ .opt b) → q.kind = "QUESTION" → D .ty (.opt a) {} (w ++ [q])
  | tyEnd {c : Tok} : c.kind = "RBRACKET" → D (.tyTail false) [] {} [c]
  | tyEndLt {c : Tok} : c.kind = "GT" → D (.tyTail true) [] {} [c]
  | tyMore {c : Tok} {close a as u u' w w'} : c.kind = "COMMA" → D .ty a u w → D (.tyTail close) as u' w' →
      D (.tyTail close) (a :: as) {} (c :: w ++ w')
  -- expressions: the conditional `a if c else e` binds weakest and groups to the right
  | expr {v t w} : D (.bin 0) v t w → D .expr v t w
  | cond {a c e ta tc te wa wc we} {i l : Tok} : D (.bin 0) a ta wa → ta.lam = false → i.kind = "IF" →
      D (.bin 0) c tc wc → tc.noElse = false → l.kind = "ELSE" → D .expr e te we →
      D .expr (.cond c a e) te (wa ++ i :: wc ++ l :: we)
  | operand {m v t w} : D .unary v t w → D (.bin m) v t w
  | op {m p l r tl tr wl wr} {o : Tok} : (o.kind, p) ∈ opLevel → m ≤ p →
      D (.bin (leftLevel o.kind p)) l tl wl → tl.lam = false → D (.bin (rightLevel o.kind p)) r tr wr →
      D (.bin m) (.bin o.kind l r) tr (wl ++ o :: wr)
  | unary {e t w} {o : Tok} : o.kind = "NOT" ∨ o.kind = "MINUS" → D .unary e t w →
      D .unary (.un o.kind e) t (o :: w)
  | unPost {e t w} : D .post e t w → D .unary e t w
  | prim {e t w} : D .prim e t w → D .post e t w
  | call {e t w as u w'} {o : Tok} : D .post e t w → t.lam = false → t.dot = false → o.kind = "LPAREN" → D (.seq .args) as u w' →
      D .post (.call e (positional as) (named as)) {} (w ++ o :: w')
  | method {e t w as u w'} {d n o : Tok} : D .post e t w → t.lam = false → d.kind = "DOT" →
      n.kind = "IDENTIFIER" → o.kind = "LPAREN" → D (.seq .args) as u w' →
      D .post (.method e n.val (positional as) (named as)) {} (w ++ d :: n :: o :: w')
  | member {e t w} {d n : Tok} : D .post e t w → t.lam = false → d.kind = "DOT" → n.kind = "IDENTIFIER" →
      D .post (.member e n.val) { dot := true } (w ++ [d, n])
  | index {e t w i u w'} {o c : Tok} : D .post e t w → t.lam = false → o.kind = "LBRACKET" → D .expr i u w' →
      c.kind = "RBRACKET" → D .post (.index e i) {} (w ++ o :: w' ++ [c])
  | lit {t : Tok} : isLit t.kind = true → D .prim (.lit t.kind t.val) {} [t]
  | ident {t : Tok} : isName t.kind = true → D .prim (.ident t.val) {} [t]
  | group {e t w} {o c : Tok} : o.kind = "LPAREN" → D .expr e t w → c.kind = "RPAREN" → D .prim e {} (o :: w ++ [c])
  | lam0 {e t w} {o c a : Tok} : o.kind = "LPAREN" → c.kind = "RPAREN" → a.kind = "DOUBLE_ARROW" → D .expr e t w →
      D .prim (.lam [] e) { lam := true, noElse := t.noElse } (o :: c :: a :: w)
  | lam {ps wp e t w} {o c a : Tok} : o.kind = "LPAREN" → Params ps wp → c.kind = "RPAREN" →
      a.kind = "DOUBLE_ARROW" → D .expr e t w →
      D .prim (.lam ps e) { lam := true, noElse := t.noElse } (o :: wp ++ c :: a :: w)
  | list0 {o c : Tok} : o.kind = "LBRACKET" → c.kind = "RBRACKET" → D .prim (.list []) {} [o, c]
  | list {e t w es u w'} {o : Tok} : o.kind = "LBRACKET" → D .expr e t w → D (.seqTail .elems) es u w' →
      D .prim (.list (e :: positional es)) {} (o :: w ++ w')
  | comp {e t w cs u w'} {o c : Tok} : o.kind = "LBRACKET" → D .expr e t w → D .clauses cs u w' → cs ≠ [] →
      c.kind = "RBRACKET" → D .prim (.comp e cs) {} (o :: w ++ w' ++ [c])
  | range {a t w b u w'} {o r c : Tok} : o.kind = "LBRACKET" → D .expr a t w → r.kind = "RANGE" → D .expr b u w' →
      c.kind = "RBRACKET" → D .prim (.range a b) {} (o :: w ++ r :: w' ++ [c])
  | dict {es u w} {o : Tok} : o.kind = "LBRACE" → D (.seq .entries) es u w → D .prim (.dict (named es)) {} (o :: w)
  | ifE {c b el els t w} {i : Tok} : i.kind = "IF" → D .ifParts (c, b, el, els) t w →
      D .prim (.ifE c b el els) t (i :: w)
  | matchE {e t w as u w'} {m c n i d : Tok} : m.kind = "MATCH" → D .expr e t w → c.kind = "COLON" →
      n.kind = "NEWLINE" → i.kind = "INDENT" → D .arms as u w' → d.kind = "DEDENT" →
      D .prim (.matchE e as) {} (m :: w ++ c :: n :: i :: w' ++ [d])
  -- arguments, list elements, dict entries
  | itemExpr {k e t w} : k ≠ .entries → D .expr e t w → D (.item k) (none, e) t w
  | itemNamed {e t w} {n a : Tok} : n.kind = "IDENTIFIER" → a.kind = "ASSIGN" → D .expr e t w →
      D (.item .args) (some n.val, e) t (n :: a :: w)
  | itemEntry {e t w} {n a : Tok} : n.kind = "STRING_LITERAL" ∨ n.kind = "IDENTIFIER" → a.kind = "COLON" →
      D .expr e t w → D (.item .entries) (some n.val, e) t (n :: a :: w)
  | seq0 {k} {c : Tok} : c.kind = k.close → D (.seq k) [] {} [c]
  | seq {k a t w as u w'} : D (.item k) a t w → D (.seqTail k) as u w' → D (.seq k) (a :: as) {} (w ++ w')
  | seqEnd {k} {c : Tok} : c.kind = k.close → D (.seqTail k) [] {} [c]
  | seqComma {k} {m c : Tok} : m.kind = "COMMA" → c.kind = k.close → D (.seqTail k) [] {} [m, c]
  | seqMore {k a t w as u w'} {m : Tok} : m.kind = "COMMA" → D (.item k) a t w → D (.seqTail k) as u w' →
      D (.seqTail k) (a :: as) {} (m :: w ++ w')
  -- comprehension clauses
  | clauses0 : D .clauses [] {} []
  | clause {it t w cs u w' rest u' w''} {o v i : Tok} : o.kind = "FOR" → v.kind = "IDENTIFIER" → i.kind = "IN" →
      D .expr it t w → D .conds cs u w' → D .clauses rest u' w'' →
      D .clauses (.mk v.val it cs :: rest) {} (o :: v :: i :: w ++ w' ++ w'')
  | conds0 : D .conds [] {} []
  | condsMore {c t w cs u w'} {i : Tok} : i.kind = "IF" → D .expr c t w → D .conds cs u w' →
      D .conds (c :: cs) {} (i :: w ++ w')
  -- if and match
  | elifs0 : D .elifs [] {} []
  | elif {c t w b u w' rest u' w''} {o k : Tok} : o.kind = "ELIF" → D .expr c t w → k.kind = "COLON" →
      D .block b u w' → D .elifs rest u' w'' → D .elifs ((c, b) :: rest) {} (o :: w ++ k :: w' ++ w'')
  | ifThen {c t w b u w' el u' w''} {k : Tok} : D .expr c t w → k.kind = "COLON" → D .block b u w' →
      D .elifs el u' w'' → D .ifParts (c, b, el, none) { noElse := true } (w ++ k :: w' ++ w'')
  | ifElse {c t w b u w' el u' w'' b' u'' w'''} {k e k' : Tok} : D .expr c t w → k.kind = "COLON" → D .block b u w' →
      D .elifs el u' w'' → e.kind = "ELSE" → k'.kind = "COLON" → D .block b' u'' w''' →
      D .ifParts (c, b, el, some b') {} (w ++ k :: w' ++ w'' ++ e :: k' :: w''')
  | arms0 : D .arms [] {} []
  | armsNl {as u w} {n : Tok} : n.kind = "NEWLINE" → D .arms as u w → D .arms as {} (n :: w)
  | arm {p e t w as u w'} {q k : Tok} : q.kind ≠ "IDENTIFIER" → IsPat p q → k.kind = "COLON" → D .expr e t w →
      D .arms as u w' → D .arms ((p, e) :: as) {} (q :: k :: w ++ w')
  | armCase {p e t w as u w'} {o q k : Tok} : o.kind = "IDENTIFIER" → IsPat p q → k.kind = "COLON" → D .expr e t w →
      D .arms as u w' → D .arms ((p, e) :: as) {} (o :: q :: k :: w ++ w')
  -- blocks and statements
  | blockNl {b u w} {n : Tok} : n.kind = "NEWLINE" → D .block b u w → D .block b {} (n :: w)
  | indented {ss t w} {i d : Tok} : i.kind = "INDENT" → D (.stmts false) ss t w → t.stop ≠ .textEnd →
      d.kind = "DEDENT" → D .block (mkBlock ss) {} (i :: w ++ [d])
  | braced {ss t w} {i d : Tok} : i.kind = "LBRACE" → D (.stmts true) ss t w →
      t.stop = .any ∨ t.stop = .blockEnd → d.kind = "RBRACE" → D .block (mkBlock ss) {} (i :: w ++ [d])
  | stmts0 {c} : D (.stmts c) [] {} []
  | stmtsNl {c ss t w} {n : Tok} : n.kind = "NEWLINE" → D (.stmts c) ss t w → D (.stmts c) ss t (n :: w)
  | stmtsMore {c s t w ss u w'} : D .stmt s t w → t.stop = .any → D (.stmts c) ss u w' →
      D (.stmts c) (s :: ss) u (w ++ w')
  | stmtsLast {c s t w} : D .stmt s t w → D (.stmts c) [s] { stop := t.stop } w
  | letS {e u w b we} {l n a : Tok} : l.kind = "LET" → n.kind = "IDENTIFIER" → a.kind = "ASSIGN" → D .expr e u w →
      Term b we → D .stmt (.letS n.val none e) { stop := b } (l :: n :: a :: w ++ we)
  | letTy {ty v wt e u w b we} {l n k a : Tok} : l.kind = "LET" → n.kind = "IDENTIFIER" → k.kind = "COLON" →
      D .ty ty v wt → a.kind = "ASSIGN" → D .expr e u w → Term b we →
      D .stmt (.letS n.val (some ty) e) { stop := b } (l :: n :: k :: wt ++ a :: w ++ we)
  | require {e u w b we} {r : Tok} : r.kind = "REQUIRE" → D .expr e u w → Term b we →
      D .stmt (.require e none) { stop := b } (r :: w ++ we)
  | requireMsg {e u w e' u' w' b we} {r k : Tok} : r.kind = "REQUIRE" → D .expr e u w → k.kind = "COMMA" →
      D .expr e' u' w' → Term b we → D .stmt (.require e (some e')) { stop := b } (r :: w ++ k :: w' ++ we)
  | assert {e u w b we} {r : Tok} : r.kind = "ASSERT" → D .expr e u w → Term b we →
      D .stmt (.assertS e none) { stop := b } (r :: w ++ we)
  | assertMsg {e u w e' u' w' b we} {r k : Tok} : r.kind = "ASSERT" → D .expr e u w → k.kind = "COMMA" →
      D .expr e' u' w' → Term b we → D .stmt (.assertS e (some e')) { stop := b } (r :: w ++ k :: w' ++ we)
  | emit {e u w md u' w' b we} {r : Tok} : r.kind = "EMIT" → D .expr e u w → D .emitMeta md u' w' → Term b we →
      D .stmt (.emit e (named md)) { stop := b } (r :: w ++ w' ++ we)
  /-- as in the code, any token at all is taken for the opening brace -/
  | emitWith {e u w md u' w' es u'' w'' b we} {r h o : Tok} : r.kind = "EMIT" → D .expr e u w → D .emitMeta md u' w' →
      h.kind = "WITH" → o.kind ≠ "EOF" → D (.seq .entries) es u'' w'' → Term b we →
      D .stmt (.emit e (updateDict (named md) (named es))) { stop := b } (r :: w ++ w' ++ h :: o :: w'' ++ we)
  | meta0 : D .emitMeta [] {} []
  | metaComma {k : Tok} : k.kind = "COMMA" → D .emitMeta [] {} [k]
  | metaMore {e u w rest u' w'} {k n a : Tok} : k.kind = "COMMA" → n.kind = "IDENTIFIER" → a.kind = "ASSIGN" →
      D .expr e u w → D .emitMeta rest u' w' → D .emitMeta ((some n.val, e) :: rest) {} (k :: n :: a :: w ++ w')
  | forS {e u w b u' w'} {o v i k : Tok} : o.kind = "FOR" → v.kind = "IDENTIFIER" → i.kind = "IN" → D .expr e u w →
      k.kind = "COLON" → D .block b u' w' → D .stmt (.forS v.val e b) {} (o :: v :: i :: w ++ k :: w')
  | ifS {c b el els t w} {i : Tok} : i.kind = "IF" → D .ifParts (c, b, el, els) t w →
      D .stmt (.ifS c b el els) t (i :: w)
  | pass {p : Tok} {b we} : p.kind = "PASS" → Term b we → D .stmt .pass { stop := b } (p :: we)
  | ret0 {r n : Tok} : r.kind = "RETURN" → n.kind = "NEWLINE" → D .stmt (.ret none) {} [r, n]
  | ret0End {r : Tok} : r.kind = "RETURN" → D .stmt (.ret none) { stop := .dedentEnd } [r]
  | ret {e u w b we} {r : Tok} : r.kind = "RETURN" → D .expr e u w → Term b we →
      D .stmt (.ret (some e)) { stop := b } (r :: w ++ we)
  | retAs {e u w ty v wt b we} {r a : Tok} : r.kind = "RETURN" → D .expr e u w → a.kind = "AS" → D .ty ty v wt →
      Term b we → D .stmt (.ret (some e)) { stop := b } (r :: w ++ a :: wt ++ we)
  | py {w} {p o c : Tok} : p.kind = "PYTHON" → o.kind = "LBRACE" → Balanced w → c.kind = "RBRACE" →
      D .stmt (.py (w.map (·.lexeme))) {} (p :: o :: w ++ [c])
  /-- an unfinished Python block at the end of the text -/
  | pyOpen {w} {p o : Tok} : p.kind = "PYTHON" → o.kind = "LBRACE" → Unclosed w →
      D .stmt (.py (w.map (·.lexeme))) { stop := .textEnd } (p :: o :: w)
  | varDecl {ty v wt b we} {n k : Tok} : n.kind = "IDENTIFIER" → k.kind = "COLON" → D .ty ty v wt → Term b we →
      D .stmt (.varDecl n.val (some ty) none) { stop := b } (n :: k :: wt ++ we)
  | varInit {ty v wt e u w b we} {n k a : Tok} : n.kind = "IDENTIFIER" → k.kind = "COLON" → D .ty ty v wt →
      a.kind = "ASSIGN" → D .expr e u w → Term b we →
      D .stmt (.varDecl n.val (some ty) (some e)) { stop := b } (n :: k :: wt ++ a :: w ++ we)
  | simple {e u w b we} {n a : Tok} : n.kind = "IDENTIFIER" → a.kind = "ASSIGN" → D .expr e u w → Term b we →
      D .stmt (.varDecl n.val none (some e)) { stop := b } (n :: a :: w ++ we)
  /-- assignment to anything but a bare name -/
  | assign {e u w e' u' w' b we} {a : Tok} : D .expr e u w → (∀ t, w = [t] → t.kind ≠ "IDENTIFIER") → cur w ≠ "IF" →
      a.kind = "ASSIGN" → D .expr e' u' w' → Term b we → D .stmt (.assign e e') { stop := b } (w ++ a :: w' ++ we)
  | exprS {e u w b we} : D .expr e u w → cur w ≠ "IF" → Term b we → D .stmt (.exprS e) { stop := b } (w ++ we)

end Verif.Parser
