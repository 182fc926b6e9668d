import Mathlib.Data.List.Basic
import Mathlib.Tactic.Common

/-!
# Model of `src/yapcad/dsl/lexer.py` (with the keyword table of `dsl/tokens.py`)

The lexer state holds the text still to be read. `_peek` past the end gives NUL, which is no blank, digit,
letter, quote or operator, so reading from the empty list is the same as Python's reading of NUL. The lexeme of a NEWLINE
token is the newline itself here (in the code the two characters backslash, n).
Not modelled: line/column positions of tokens (lexemes are), the text of error messages, CPython's limits
(recursion depth for very many blank lines inside brackets, 4300-digit integers), the value of float literals
(the lexeme is kept), surrogate characters, and the sign/blank/underscore forms that `int(_, 16)` accepts inside
`\x` and `\u` escapes (treated as errors here).
-/

namespace Verif.Lexer

/-- the Unicode character classes Python's `str` methods use; the laws say what they are on ASCII and that
a decimal digit is a digit -/
structure Uni where
  isdigit : Char → Bool
  isalpha : Char → Bool
  isnumeric : Char → Bool
  decimal : Char → Option Nat
  ascii_digit : ∀ c : Char, c.toNat < 128 → isdigit c = c.isDigit
  ascii_alpha : ∀ c : Char, c.toNat < 128 → isalpha c = c.isAlpha
  ascii_numeric : ∀ c : Char, c.toNat < 128 → isnumeric c = c.isDigit
  ascii_decimal : ∀ c : Char, c.toNat < 128 → decimal c = if c.isDigit then some (c.toNat - 48) else none

/-- `str.isalnum` of one character -/
def Uni.isalnum (U : Uni) (c : Char) : Bool := U.isalpha c || U.isdigit c || U.isnumeric c

/-- token values, tokens.py:190-196 -/
inductive TVal
  | none
  | int (n : Nat)
  | float (lexeme : List Char)
  | bool (b : Bool)
  | text (s : List Char)
  deriving DecidableEq

/-- `Token`, tokens.py:190-196; `kind` is the name of the `TokenType` -/
structure Tok where
  kind : String
  val : TVal
  lexeme : List Char
  deriving DecidableEq

/-- lexer state, lexer.py:53-68. `indents` has the top of the stack first. `odd` is a ghost counter (not
in the code): how often the lenient branch of lines 206-210 was taken. -/
structure St where
  rest : List Char
  indents : List Nat
  als : Bool
  pending : List Tok
  depth : Nat
  odd : Nat
  deriving DecidableEq

/-- `Lexer(source)`, lexer.py:53-68 -/
def St.init (src : List Char) : St := ⟨src, [0], true, [], 0, 0⟩

/-- `KEYWORDS`, tokens.py:205-293 -/
def keywords : List (String × String) :=
  [("module", "MODULE"), ("use", "USE"), ("def", "DEF"), ("return", "RETURN"), ("emit", "EMIT"), ("if", "IF"),
   ("elif", "ELIF"), ("else", "ELSE"), ("for", "FOR"), ("in", "IN"), ("while", "WHILE"), ("assert", "ASSERT"),
   ("pass", "PASS"), ("as", "AS"), ("match", "MATCH"), ("export", "EXPORT"), ("native", "NATIVE"),
   ("and", "AND"), ("or", "OR"), ("not", "NOT"), ("command", "COMMAND"), ("let", "LET"), ("require", "REQUIRE"),
   ("with", "WITH"), ("python", "PYTHON"), ("fn", "FN"), ("exports", "EXPORTS"), ("close", "CLOSE"),
   ("closeC0", "CLOSE_C0"), ("closeC1", "CLOSE_C1"), ("True", "BOOL_LITERAL"), ("False", "BOOL_LITERAL"),
   ("true", "BOOL_LITERAL"), ("false", "BOOL_LITERAL"), ("int", "TYPE_INT"), ("float", "TYPE_FLOAT"),
   ("string", "TYPE_STRING"), ("str", "TYPE_STRING"), ("bool", "TYPE_BOOL"), ("point", "TYPE_POINT"),
   ("point2d", "TYPE_POINT2D"), ("point3d", "TYPE_POINT3D"), ("vector", "TYPE_VECTOR"),
   ("vector2d", "TYPE_VECTOR2D"), ("vector3d", "TYPE_VECTOR3D"), ("transform", "TYPE_TRANSFORM"),
   ("line_segment", "TYPE_LINE_SEGMENT"), ("arc", "TYPE_ARC"), ("circle", "TYPE_CIRCLE"),
   ("ellipse", "TYPE_ELLIPSE"), ("parabola", "TYPE_PARABOLA"), ("hyperbola", "TYPE_HYPERBOLA"),
   ("catmullrom", "TYPE_CATMULLROM"), ("nurbs", "TYPE_NURBS"), ("bezier", "TYPE_BEZIER"),
   ("path2d", "TYPE_PATH2D"), ("path3d", "TYPE_PATH3D"), ("profile2d", "TYPE_PROFILE2D"),
   ("region2d", "TYPE_REGION2D"), ("loop3d", "TYPE_LOOP3D"), ("surface", "TYPE_SURFACE"),
   ("shell", "TYPE_SHELL"), ("solid", "TYPE_SOLID"), ("list", "TYPE_LIST"), ("dict", "TYPE_DICT")]

/-- what the state's `at_line_start` becomes when `_advance` consumes the characters `w`, lexer.py:98-111 -/
def sawNl (w : List Char) (als : Bool) : Bool := als || w.contains '\n'

/-- `' '` or tab -/
def isBlank (c : Char) : Bool := c = ' ' || c = '\t'

/-- `_skip_comment`, lexer.py:124-127 -/
def skipComment (l : List Char) : List Char := l.dropWhile (· ≠ '\n')

/-- the loop of `_skip_multiline_comment`, lexer.py:136-152: the text after the comment and whether a newline
was passed; `none` = unterminated -/
def blockRest : Nat → List Char → Bool → Option (List Char × Bool)
  | 0, r, nl => some (r, nl)
  | _ + 1, [], _ => none
  | d + 1, '/' :: '*' :: r, nl => blockRest (d + 2) r nl
  | d + 1, '*' :: '/' :: r, nl => blockRest d r nl
  | d + 1, c :: r, nl => blockRest (d + 1) r (nl || c = '\n')

/-- popping the indentation stack, lexer.py:200-205: number of DEDENTs and the stack -/
def popDedent (indent : Nat) : List Nat → Nat × List Nat
  | [] => (0, [])
  | t :: s => if indent < t then let (k, s') := popDedent indent s; (k + 1, s') else (0, t :: s)

def dedentTok : Tok := ⟨"DEDENT", .none, []⟩
def indentTok : Tok := ⟨"INDENT", .none, []⟩

/-- the part of `_handle_line_start` that compares indentation, lexer.py:186-217 -/
def indentation (s : St) (indent : Nat) : Option Tok × St :=
  if s.depth > 0 then (none, s)
  else if indent > s.indents.headD 0 then (some indentTok, { s with indents := indent :: s.indents })
  else if indent < s.indents.headD 0 then
    let (k, st) := popDedent indent s.indents
    let s' := if st.headD 0 = indent then { s with indents := st }
      else { s with indents := indent :: st, odd := s.odd + 1 }
    if k = 0 then (none, s')
    else (some dedentTok, { s' with pending := s'.pending ++ List.replicate (k - 1) dedentTok })
  else (none, s)

/-- `_handle_line_start`, lexer.py:154-217 -/
def handleLineStart (s : St) : Except String (Option Tok × St) :=
  if s.als then
    let indent := (s.rest.takeWhile isBlank).length
    let rest := s.rest.dropWhile isBlank
    match rest with
    | [] => .ok (none, { s with rest := rest })
    | '\n' :: _ => .ok (none, { s with rest := rest })
    | '\x00' :: _ => .ok (none, { s with rest := rest })
    | '#' :: _ => .ok (none, { s with rest := skipComment rest })
    | '/' :: '*' :: r => match blockRest 1 r false with
      | none => .error "unterminated_comment"
      | some (r', _) => .ok (none, { s with rest := r' })
    | _ => .ok (indentation { s with rest := rest, als := false } indent)
  else .ok (none, s)

/-- white space and comments inside a line, lexer.py:473-482; the fuel is the length of the text, which the
loop cannot exceed -/
def skipGap : Nat → List Char → Bool → Option (List Char × Bool)
  | 0, l, nl => some (l, nl)
  | n + 1, l, nl =>
    match l.dropWhile isBlank with
    | '#' :: r => skipGap n (skipComment ('#' :: r)) nl
    | '/' :: '*' :: r => match blockRest 1 r false with
      | none => none
      | some (r', b) => skipGap n r' (nl || b)
    | l' => some (l', nl)

/-- hexadecimal digit value -/
def hexVal (c : Char) : Option Nat :=
  if '0' ≤ c ∧ c ≤ '9' then some (c.toNat - 48)
  else if 'a' ≤ c ∧ c ≤ 'f' then some (c.toNat - 87)
  else if 'A' ≤ c ∧ c ≤ 'F' then some (c.toNat - 55)
  else none

/-- one digit of `int(s, b)` -/
def dstep (b : Nat) (dv : Char → Option Nat) (acc : Option Nat) (c : Char) : Option Nat :=
  match acc, dv c with
  | some a, some d => some (a * b + d)
  | _, _ => none

/-- `int(s, b)` on plain digits with digit values `dv` -/
def digitsVal (b : Nat) (dv : Char → Option Nat) (l : List Char) : Option Nat := l.foldl (dstep b dv) (some 0)

/-- `chr(int(hex, 16))`, lexer.py:312-333 -/
def hexChar (l : List Char) : Option Char :=
  match digitsVal 16 hexVal l with
  | some n => if n.isValidChar then some (Char.ofNat n) else none
  | none => none

/-- the one-character escapes, lexer.py:300-308 -/
def simpleEscape (c : Char) : Option Char :=
  if c = 'n' then some '\n' else if c = 't' then some '\t' else if c = 'r' then some '\r'
  else if c = '\\' then some '\\' else if c = '"' then some '"' else if c = '\'' then some '\''
  else if c = '0' then some '\x00' else none

/-- `_scan_escape_sequence`, lexer.py:291-337: the character and the rest of the text -/
def scanEscape (l : List Char) : Option (Char × List Char) :=
  match l with
  | [] => none
  | c :: r =>
    match simpleEscape c with
    | some e => some (e, r)
    | none =>
      if c = 'x' then match r with
        | a :: b :: r' => (hexChar [a, b]).map (·, r')
        | _ => none
      else if c = 'u' then match r with
        | a :: b :: d :: e :: r' => (hexChar [a, b, d, e]).map (·, r')
        | _ => none
      else none

/-- the loop of `_scan_string`, lexer.py:243-266: value and rest after the closing quote. Fuel: length. -/
def stringBody (q : Char) : Nat → List Char → Except String (List Char × List Char)
  | 0, _ => .error "unterminated_string"
  | _ + 1, [] => .error "unterminated_string"
  | n + 1, c :: r =>
    if c = q then .ok ([], r)
    else if c = '\n' then .error "unterminated_string"
    else if c = '\\' then match scanEscape r with
      | none => .error "invalid_escape"
      | some (e, r') => (stringBody q n r').map fun (v, t) => (e :: v, t)
    else (stringBody q n r).map fun (v, t) => (c :: v, t)

/-- `_scan_multiline_string`, lexer.py:268-289 -/
def tripleBody (q : Char) : Nat → List Char → Except String (List Char × List Char)
  | 0, _ => .error "unterminated_multiline_string"
  | _ + 1, [] => .error "unterminated_multiline_string"
  | n + 1, c :: r =>
    if c = q ∧ r.take 2 = [q, q] then .ok ([], r.drop 2)
    else if c = '\\' then match scanEscape r with
      | none => .error "invalid_escape"
      | some (e, r') => (tripleBody q n r').map fun (v, t) => (e :: v, t)
    else (tripleBody q n r).map fun (v, t) => (c :: v, t)

/-- what was consumed between two positions -/
def consumed (l r : List Char) : List Char := l.take (l.length - r.length)

/-- `_scan_string`, lexer.py:232-266 -/
def scanString (l : List Char) : Except String (Tok × List Char) :=
  match l with
  | [] => .error "unterminated_string"
  | q :: r =>
    let res := if r.take 2 = [q, q] then tripleBody q (r.drop 2).length (r.drop 2) else stringBody q r.length r
    res.map fun (v, t) => (⟨"STRING_LITERAL", .text v, consumed l t⟩, t)

/-- first character in a class -/
def headIs (p : Char → Bool) : List Char → Bool
  | [] => false
  | c :: _ => p c

/-- fraction part, lexer.py:357-363 -/
def fracPart (U : Uni) (l : List Char) : List Char × List Char :=
  match l with
  | '.' :: r => if headIs U.isdigit r then ('.' :: r.takeWhile U.isdigit, r.dropWhile U.isdigit) else ([], l)
  | _ => ([], l)

/-- optional sign of the exponent, lexer.py:369-370 -/
def signPart (l : List Char) : List Char × List Char :=
  match l with
  | '+' :: r => (['+'], r)
  | '-' :: r => (['-'], r)
  | _ => ([], l)

/-- exponent part, lexer.py:365-377 -/
def expPart (U : Uni) (l : List Char) : Except String (List Char × List Char) :=
  match l with
  | [] => .ok ([], [])
  | c :: r =>
    if c = 'e' ∨ c = 'E' then
      let (sg, r') := signPart r
      if headIs U.isdigit r' then .ok (c :: (sg ++ r'.takeWhile U.isdigit), r'.dropWhile U.isdigit)
      else .error "invalid_number"
    else .ok ([], l)

/-- a decimal literal, lexer.py:353-390 -/
def scanDec (U : Uni) (l : List Char) : Except String (Tok × List Char) :=
  let ds := l.takeWhile U.isdigit
  let (f, r2) := fracPart U (l.dropWhile U.isdigit)
  match expPart U r2 with
  | .error e => .error e
  | .ok (e, r3) =>
    if f.isEmpty && e.isEmpty then
      match digitsVal 10 U.decimal ds with
      | some v => .ok (⟨"INT_LITERAL", .int v, ds⟩, r3)
      | none => .error "invalid_number"
    else if (ds ++ f ++ e).all (fun c => !U.isdigit c || (U.decimal c).isSome) then
      .ok (⟨"FLOAT_LITERAL", .float (ds ++ f ++ e), ds ++ f ++ e⟩, r3)
    else .error "invalid_number"

/-- `_scan_hex_number` / `_scan_binary_number` after the prefix, lexer.py:392-438: digit values `dv`, base `b` -/
def scanBased (b : Nat) (dv : Char → Option Nat) (err : String) (pre l : List Char) :
    Except String (Tok × List Char) :=
  if headIs (fun c => (dv c).isSome) l then
    let w := l.takeWhile (fun c => (dv c).isSome || c = '_')
    match digitsVal b dv (w.filter (· ≠ '_')) with
    | some v => .ok (⟨"INT_LITERAL", .int v, pre ++ w⟩, l.dropWhile (fun c => (dv c).isSome || c = '_'))
    | none => .error err
  else .error err

/-- binary digit value -/
def binVal (c : Char) : Option Nat := if c = '0' then some 0 else if c = '1' then some 1 else none

/-- `_scan_number`, lexer.py:339-390 -/
def scanNumber (U : Uni) (l : List Char) : Except String (Tok × List Char) :=
  match l with
  | '0' :: c :: r =>
    if c = 'x' ∨ c = 'X' then scanBased 16 hexVal "invalid_hex" ['0', c] r
    else if c = 'b' ∨ c = 'B' then scanBased 2 binVal "invalid_binary" ['0', c] r
    else scanDec U l
  | _ => scanDec U l

/-- `_scan_identifier_or_keyword`, lexer.py:440-460 -/
def scanIdent (U : Uni) (l : List Char) : Tok × List Char :=
  let w := l.takeWhile (fun c => U.isalnum c || c = '_')
  let r := l.dropWhile (fun c => U.isalnum c || c = '_')
  let s := String.ofList w
  match keywords.lookup s with
  | some k =>
    (⟨k, if k = "BOOL_LITERAL" then .bool (decide (s = "True" ∨ s = "true")) else .text w, w⟩, r)
  | none => (⟨"IDENTIFIER", .text w, w⟩, r)

/-- two-character operators, lexer.py:526-548 -/
def twoTable : List ((Char × Char) × String) :=
  [(('-', '>'), "ARROW"), (('=', '>'), "DOUBLE_ARROW"), (('=', '='), "EQ"), (('!', '='), "NE"),
   (('<', '='), "LE"), (('>', '='), "GE"), (('.', '.'), "RANGE"), (('*', '*'), "DOUBLE_STAR"),
   (('/', '/'), "DOUBLE_SLASH"), (('+', '='), "PLUS_ASSIGN"), (('-', '='), "MINUS_ASSIGN")]

/-- the first two-character operator that matches, lexer.py:526-548 -/
def twoChar (c d : Char) : Option String := twoTable.lookup (c, d)

/-- brackets, lexer.py:550-568: kind and the new bracket depth -/
def bracket (c : Char) (depth : Nat) : Option (String × Nat) :=
  if c = '(' then some ("LPAREN", depth + 1) else if c = ')' then some ("RPAREN", depth - 1)
  else if c = '[' then some ("LBRACKET", depth + 1) else if c = ']' then some ("RBRACKET", depth - 1)
  else if c = '{' then some ("LBRACE", depth + 1) else if c = '}' then some ("RBRACE", depth - 1)
  else none

/-- single-character tokens, lexer.py:570-588 -/
def oneTable : List (Char × String) :=
  [('+', "PLUS"), ('-', "MINUS"), ('*', "STAR"), ('/', "SLASH"), ('%', "PERCENT"), ('<', "LT"), ('>', "GT"),
   ('=', "ASSIGN"), (':', "COLON"), (';', "SEMICOLON"), (',', "COMMA"), ('.', "DOT"), ('?', "QUESTION"),
   ('@', "AT"), ('#', "HASH")]

/-- lexer.py:589-590 -/
def oneChar (c : Char) : Option String := oneTable.lookup c

/-- result of one attempt of `_scan_token`: a token, its tail call to itself (line 494), or an exception -/
inductive Step
  | emit (t : Tok) (s : St)
  | again (s : St)
  | fail (e : String)
  deriving DecidableEq

/-- one-character tokens and brackets, lexer.py:550-595 -/
def scanSingle (s : St) (c : Char) (r : List Char) : Step :=
  match bracket c s.depth with
  | some (k, d) => .emit ⟨k, .text [c], [c]⟩ { s with rest := r, depth := d }
  | none => match oneChar c with
    | some k => .emit ⟨k, .text [c], [c]⟩ { s with rest := r }
    | none => .fail "unexpected_character"

/-- operators, lexer.py:523-595 -/
def scanOp (s : St) (c : Char) (r : List Char) : Step :=
  match r with
  | d :: r' => match twoChar c d with
    | some k => .emit ⟨k, .text [c, d], [c, d]⟩ { s with rest := r' }
    | none => scanSingle s c r
  | [] => scanSingle s c r

/-- store the outcome of a scanning function -/
def emitRes (s : St) (res : Except String (Tok × List Char)) : Step :=
  match res with
  | .error e => .fail e
  | .ok (t, r) => .emit t { s with rest := r, als := sawNl t.lexeme s.als }

/-- `_scan_token` once blanks and comments are skipped, lexer.py:484-595 -/
def scanMain (U : Uni) (s : St) : Step :=
  match s.rest with
  | [] =>
    let ds := List.replicate (s.indents.length - 1) dedentTok
    match s.pending ++ ds with
    | t :: p => .emit t { s with indents := s.indents.drop (s.indents.length - 1), pending := p }
    | [] => .emit ⟨"EOF", .none, []⟩ { s with indents := s.indents.drop (s.indents.length - 1), pending := [] }
  | c :: r =>
    if c = '\n' then
      if s.depth = 0 then .emit ⟨"NEWLINE", .none, ['\n']⟩ { s with rest := r, als := true }
      else .again { s with rest := r, als := true }
    else if c = '"' ∨ c = '\'' then emitRes s (scanString s.rest)
    else if U.isdigit c then emitRes s (scanNumber U s.rest)
    else if U.isalpha c || c = '_' then emitRes s (.ok (scanIdent U s.rest))
    else scanOp s c r

/-- blanks and comments, then the token, lexer.py:473-595 -/
def afterIndent (U : Uni) (s : St) : Step :=
  match skipGap (s.rest.length + 1) s.rest false with
  | none => .fail "unterminated_comment"
  | some (r, nl) => scanMain U { s with rest := r, als := s.als || nl }

/-- `_scan_token`, lexer.py:462-595 -/
def step (U : Uni) (s : St) : Step :=
  match s.pending with
  | t :: p => .emit t { s with pending := p }
  | [] => match handleLineStart s with
    | .error e => .fail e
    | .ok (some t, s') => .emit t s'
    | .ok (none, s') => afterIndent U s'

/-- `tokenize`, lexer.py:597-605: the tokens, with (ghost, not in the code) the number of lenient dedents;
`none` = more than `n` rounds -/
def run (U : Uni) : Nat → St → Option (Except String (List Tok × Nat))
  | 0, _ => none
  | n + 1, s => match step U s with
    | .fail e => some (.error e)
    | .again s' => run U n s'
    | .emit t s' => if t.kind = "EOF" then some (.ok ([t], s'.odd))
      else (run U n s').map fun r => r.map fun (ts, k) => (t :: ts, k)

/-- number of rounds that is always enough, see `C22_terminates` -/
def fuel (src : List Char) : Nat := 3 * src.length + 2

/-- `tokenize(source)`, lexer.py:616-631 -/
def tokenize (U : Uni) (src : List Char) : Option (Except String (List Tok × Nat)) :=
  run U (fuel src) (St.init src)

/-- ASCII only: an instance of the character classes, for examples -/
def asciiUni : Uni where
  isdigit := Char.isDigit
  isalpha := Char.isAlpha
  isnumeric := Char.isDigit
  decimal c := if c.isDigit then some (c.toNat - 48) else none
  ascii_digit _ _ := rfl
  ascii_alpha _ _ := rfl
  ascii_numeric _ _ := rfl
  ascii_decimal _ _ := rfl

end Verif.Lexer
