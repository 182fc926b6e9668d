import Verif.Lexer.Model

/-! Specification notions for C22-C24, C72-C74; none of them uses the lexer's functions. -/

namespace Verif.Lexer

/-- `Comment d l r`: reading `l` from left to right inside `d` open block comments, all of them are closed
just before `r`. An opener or closer is recognised wherever its two characters stand. -/
inductive Comment : Nat → List Char → List Char → Prop
  | done (r) : Comment 0 r r
  | opn (d l r) : Comment (d + 2) l r → Comment (d + 1) ('/' :: '*' :: l) r
  | cls (d l r) : Comment d l r → Comment (d + 1) ('*' :: '/' :: l) r
  | chr (d c l r) : ¬ (c = '/' ∧ ['*'] <+: l) → ¬ (c = '*' ∧ ['/'] <+: l) → Comment (d + 1) l r →
      Comment (d + 1) (c :: l) r

/-- `Gap l r`: `l` is `r` preceded by blanks, newlines and comments only -/
inductive Gap : List Char → List Char → Prop
  | refl (l) : Gap l l
  | blank (c l r) : c = ' ' ∨ c = '\t' ∨ c = '\n' → Gap l r → Gap (c :: l) r
  | line (w l r) : '\n' ∉ w → (l = [] ∨ ['\n'] <+: l) → Gap l r → Gap ('#' :: (w ++ l)) r
  | block (l l' r) : Comment 1 l l' → Gap l' r → Gap ('/' :: '*' :: l) r

/-- `Covers l ts`: `l` is the concatenation of the tokens' lexemes, with gaps before, between and after -/
inductive Covers : List Char → List Tok → Prop
  | nil (l) : Gap l [] → Covers l []
  | cons (l t r ts) : Gap l (t.lexeme ++ r) → Covers r ts → Covers l (t :: ts)

/-- number of tokens of a kind -/
def kindCount (k : String) (ts : List Tok) : Nat := ts.countP (fun t => t.kind = k)

/-- how many brackets are open after the tokens (closing brackets with nothing open are ignored) -/
def openBrackets (ts : List Tok) : Nat :=
  ts.foldl (fun d t =>
    if t.kind ∈ ["LPAREN", "LBRACKET", "LBRACE"] then d + 1
    else if t.kind ∈ ["RPAREN", "RBRACKET", "RBRACE"] then d - 1 else d) 0

/-- `c` is a hexadecimal digit of value `v` -/
def HexDigit (c : Char) (v : Nat) : Prop :=
  (v, c) ∈ (List.range 16).zip "0123456789abcdef".toList ∨ (v, c) ∈ (List.range 16).zip "0123456789ABCDEF".toList

/-- the ways a character may be written inside a one-line string literal with quote `q` -/
inductive Enc (q : Char) : Char → List Char → Prop
  | raw (c) : c ≠ q → c ≠ '\\' → c ≠ '\n' → Enc q c [c]
  | nl : Enc q '\n' ['\\', 'n']
  | tab : Enc q '\t' ['\\', 't']
  | cr : Enc q '\r' ['\\', 'r']
  | bs : Enc q '\\' ['\\', '\\']
  | dq : Enc q '"' ['\\', '"']
  | sq : Enc q '\'' ['\\', '\'']
  | nul : Enc q '\x00' ['\\', '0']
  | hex (c a b x y) : HexDigit a x → HexDigit b y → c.toNat = 16 * x + y → Enc q c ['\\', 'x', a, b]
  | uni (c a b d e x y z w) : HexDigit a x → HexDigit b y → HexDigit d z → HexDigit e w →
      c.toNat = 4096 * x + 256 * y + 16 * z + w → Enc q c ['\\', 'u', a, b, d, e]

end Verif.Lexer
