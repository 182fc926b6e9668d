import Verif.Base.PyVal
import Mathlib.Data.List.Lex
import Mathlib.Data.List.Sort
import Mathlib.Data.String.Basic
import Mathlib.Tactic.Linarith

/-!
# Canonical JSON text

Models `json.dumps(data, sort_keys=True, separators=(',', ':'))` as used by
src/yapcad/package/signing.py:123-127. Text is `List Char`.

Simplifications: dictionary keys are strings (YAML also allows others); values are those of `Val` (no YAML dates);
the text of numbers is a parameter (`NumText`), of which only the facts stated there are used.
-/

namespace Verif.Pkg

open Verif.Dict
variable {K : Type}

/-- What is used of the text Python writes for numbers: different numbers have different texts, a text is not empty,
does not begin like another kind of value and contains no `,`, `]` or `}`. -/
structure NumText (K : Type) where
  text : K → List Char
  inj : Function.Injective text
  head : ∀ x, ∃ c r, text x = c :: r ∧ c ∉ ['n', 't', 'f', '"', '[', '{', ']', '}']
  plain : ∀ x, ∀ c ∈ text x, c ∉ [',', ']', '}']

/-- lower-case hexadecimal digit -/
def hexDigit (n : Nat) : Char := ("0123456789abcdef".toList).getD n '0'

/-- `'{0:04x}'.format(n)` -/
def hex4 (n : Nat) : List Char :=
  [hexDigit (n / 4096 % 16), hexDigit (n / 256 % 16), hexDigit (n / 16 % 16), hexDigit (n % 16)]

/-- the two-character escapes -/
def shortEsc : List (Char × Char) :=
  [('"', '"'), ('\\', '\\'), ('\n', 'n'), ('\r', 'r'), ('\t', 't'), (Char.ofNat 12, 'f'), (Char.ofNat 8, 'b')]

/-- Python's `py_encode_basestring_ascii` on one character: short escapes, plain printable ASCII, `\uXXXX`, and a
surrogate pair beyond the basic plane -/
def esc (c : Char) : List Char :=
  match dget shortEsc c with
  | some x => ['\\', x]
  | none =>
    if 32 ≤ c.toNat ∧ c.toNat ≤ 126 then [c]
    else if c.toNat < 65536 then '\\' :: 'u' :: hex4 c.toNat
    else '\\' :: 'u' :: hex4 (0xd800 + (c.toNat - 65536) / 1024) ++
      ('\\' :: 'u' :: hex4 (0xdc00 + (c.toNat - 65536) % 1024))

/-- the characters of a string, escaped, up to and including the closing quote -/
def escs : List Char → List Char
  | [] => ['"']
  | c :: cs => esc c ++ escs cs

/-- a string literal -/
def quote (s : String) : List Char := '"' :: escs s.toList

/-- comparison used by `sorted(d.items())`: by key, code point by code point -/
def leKey (V : Type) (a b : String × V) : Prop := a.1.toList ≤ b.1.toList

instance (V : Type) : DecidableRel (leKey V) := fun a b => inferInstanceAs (Decidable (a.1.toList ≤ b.1.toList))

/-- `sorted(d.items())` -/
def sortKeys {V : Type} (d : List (String × V)) : List (String × V) := d.insertionSort (leKey V)

mutual
/-- sort the items of every dictionary, at every depth (`sort_keys=True`) -/
def norm : Val K → Val K
  | .none => .none
  | .bool b => .bool b
  | .num x => .num x
  | .str s => .str s
  | .list l => .list (normL l)
  | .dict d => .dict (sortKeys (normD d))
/-- `norm` on the elements of a list -/
def normL : List (Val K) → List (Val K)
  | [] => []
  | v :: l => norm v :: normL l
/-- `norm` on the values of a dictionary -/
def normD : List (String × Val K) → List (String × Val K)
  | [] => []
  | p :: d => (p.1, norm p.2) :: normD d
end

mutual
/-- JSON text with separators `,` and `:`, dictionaries in the order given -/
def enc (N : NumText K) : Val K → List Char
  | .none => ['n', 'u', 'l', 'l']
  | .bool true => ['t', 'r', 'u', 'e']
  | .bool false => ['f', 'a', 'l', 's', 'e']
  | .num x => N.text x
  | .str s => quote s
  | .list [] => ['[', ']']
  | .list (v :: l) => '[' :: (enc N v ++ encL N l)
  | .dict [] => ['{', '}']
  | .dict (p :: d) => '{' :: (quote p.1 ++ ':' :: (enc N p.2 ++ encD N d))
/-- the remaining elements of a list -/
def encL (N : NumText K) : List (Val K) → List Char
  | [] => [']']
  | v :: l => ',' :: (enc N v ++ encL N l)
/-- the remaining items of a dictionary -/
def encD (N : NumText K) : List (String × Val K) → List Char
  | [] => ['}']
  | p :: d => ',' :: (quote p.1 ++ ':' :: (enc N p.2 ++ encD N d))
end

/-- `json.dumps(data, sort_keys=True, separators=(',', ':'))`, signing.py:123-124 -/
def dumps (N : NumText K) (v : Val K) : List Char := enc N (norm v)

/-! ### Reading the text back -/

theorem hexDigit_inj {m n : Nat} (hm : m < 16) (hn : n < 16) (h : hexDigit m = hexDigit n) : m = n := by
  have : ∀ m : Fin 16, ∀ n : Fin 16, hexDigit m.val = hexDigit n.val → m = n := by decide
  have := this ⟨m, hm⟩ ⟨n, hn⟩ h
  exact Fin.val_eq_of_eq this

theorem hex4_inj {m n : Nat} (hm : m < 65536) (hn : n < 65536) {r r' : List Char} (h : hex4 m ++ r = hex4 n ++ r') :
    m = n ∧ r = r' := by
  unfold hex4 at h
  simp only [List.cons_append, List.nil_append, List.cons.injEq] at h
  obtain ⟨h1, h2, h3, h4, h5⟩ := h
  have h1 := hexDigit_inj (by omega) (by omega) h1
  have h2 := hexDigit_inj (by omega) (by omega) h2
  have h3 := hexDigit_inj (by omega) (by omega) h3
  have h4 := hexDigit_inj (by omega) (by omega) h4
  exact ⟨by omega, h5⟩

theorem char_lt (c : Char) : c.toNat < 0x110000 := by
  have := c.valid
  unfold UInt32.isValidChar Nat.isValidChar at this
  show c.val.toNat < _
  omega

theorem char_not_surrogate (c : Char) : ¬ (0xd800 ≤ c.toNat ∧ c.toNat < 0xe000) := by
  have := c.valid
  unfold UInt32.isValidChar Nat.isValidChar at this
  show ¬ (_ ≤ c.val.toNat ∧ c.val.toNat < _)
  omega

theorem char_ext {a b : Char} (h : a.toNat = b.toNat) : a = b := Char.toNat_inj.mp h

/-- the four shapes of an escaped character -/
theorem esc_cases (c : Char) :
    (∃ x, esc c = ['\\', x] ∧ x ≠ 'u' ∧ dget shortEsc c = some x) ∨
    (esc c = [c] ∧ c ≠ '\\' ∧ c ≠ '"') ∨
    (esc c = '\\' :: 'u' :: hex4 c.toNat ∧ c.toNat < 65536) ∨
    (65536 ≤ c.toNat ∧ esc c = '\\' :: 'u' :: hex4 (0xd800 + (c.toNat - 65536) / 1024) ++
      ('\\' :: 'u' :: hex4 (0xdc00 + (c.toNat - 65536) % 1024))) := by
  unfold esc
  cases hx : dget shortEsc c with
  | some x =>
    refine .inl ⟨x, rfl, ?_, rfl⟩
    have h := mem_of_dget hx
    have : ∀ p ∈ shortEsc, p.2 ≠ 'u' := by decide
    exact this _ h
  | none =>
    have h1 : c ≠ '\\' := by rintro rfl; revert hx; decide
    have h2 : c ≠ '"' := by rintro rfl; revert hx; decide
    simp only
    split_ifs with h8 h9
    · exact .inr (.inl ⟨rfl, h1, h2⟩)
    · exact .inr (.inr (.inl ⟨rfl, h9⟩))
    · exact .inr (.inr (.inr ⟨by omega, rfl⟩))

theorem shortEsc_inj {a b x : Char} (ha : dget shortEsc a = some x) (hb : dget shortEsc b = some x) : a = b := by
  have : ∀ p ∈ shortEsc, ∀ q ∈ shortEsc, p.2 = q.2 → p.1 = q.1 := by decide
  exact this _ (mem_of_dget ha) _ (mem_of_dget hb) rfl

/-- an escaped character can be told from what follows it -/
theorem esc_inj {a b : Char} {r r' : List Char} (h : esc a ++ r = esc b ++ r') : a = b ∧ r = r' := by
  have ha := char_not_surrogate a
  have hb := char_not_surrogate b
  have ha2 := char_lt a
  have hb2 := char_lt b
  rcases esc_cases a with ⟨x, h1, h2, h3⟩ | ⟨h1, h2, _⟩ | ⟨h1, h2⟩ | ⟨h2, h1⟩ <;>
  rcases esc_cases b with ⟨y, k1, k2, k3⟩ | ⟨k1, k2, _⟩ | ⟨k1, k2⟩ | ⟨k2, k1⟩ <;>
  rw [h1, k1] at h <;> simp only [List.cons_append, List.nil_append, List.cons.injEq, true_and, List.append_assoc] at h
  · obtain ⟨rfl, h⟩ := h
    exact ⟨shortEsc_inj h3 k3, h⟩
  · exact absurd h.1.symm k2
  · exact absurd h.1 h2
  · exact absurd h.1 h2
  · exact absurd h.1 h2
  · exact h
  · exact absurd h.1 h2
  · exact absurd h.1 h2
  · exact absurd h.1.symm k2
  · exact absurd h.1.symm k2
  · obtain ⟨h5, h6⟩ := hex4_inj h2 k2 h
    exact ⟨char_ext h5, h6⟩
  · have := (hex4_inj h2 (by omega) h).1
    omega
  · exact absurd h.1.symm k2
  · exact absurd h.1.symm k2
  · have := (hex4_inj (by omega) k2 h).1
    omega
  · obtain ⟨h5, h6⟩ := hex4_inj (by omega) (by omega) h
    simp only [List.cons_append, List.cons.injEq, true_and] at h6
    obtain ⟨h7, h8⟩ := hex4_inj (by omega) (by omega) h6
    exact ⟨char_ext (by omega), h8⟩

theorem esc_head (c : Char) : ∃ x r, esc c = x :: r ∧ x ≠ '"' := by
  rcases esc_cases c with ⟨x, h1, _⟩ | ⟨h1, _, h2⟩ | ⟨h1, _⟩ | ⟨_, h1⟩
  · exact ⟨_, _, h1, by decide⟩
  · exact ⟨_, _, h1, h2⟩
  · exact ⟨_, _, h1, by decide⟩
  · exact ⟨_, _, h1, by decide⟩

theorem escs_inj (l : List Char) : ∀ (l' r r' : List Char), escs l ++ r = escs l' ++ r' → l = l' ∧ r = r' := by
  induction l with
  | nil =>
    intro l' r r' h
    cases l' with
    | nil => simpa [escs] using h
    | cons c l' =>
      obtain ⟨x, t, hx, hn⟩ := esc_head c
      simp only [escs, hx, List.cons_append, List.cons.injEq] at h
      exact absurd h.1.symm hn
  | cons c l ih =>
    intro l' r r' h
    cases l' with
    | nil =>
      obtain ⟨x, t, hx, hn⟩ := esc_head c
      simp only [escs, hx, List.cons_append, List.cons.injEq] at h
      exact absurd h.1 hn
    | cons d l' =>
      simp only [escs, List.append_assoc] at h
      obtain ⟨hq, g⟩ := esc_inj h
      clear h
      subst hq
      have h := g
      clear g
      obtain ⟨hq, g⟩ := ih _ _ _ h
      clear h
      subst hq
      have h := g
      clear g
      exact ⟨rfl, h⟩

theorem quote_inj {s t : String} {r r' : List Char} (h : quote s ++ r = quote t ++ r') : s = t ∧ r = r' := by
  simp only [quote, List.cons_append, List.cons.injEq, true_and] at h
  obtain ⟨h1, h2⟩ := escs_inj _ _ _ _ h
  exact ⟨String.toList_inj.mp h1, h2⟩

/-- what may follow a value: nothing, or one of `,`, `]`, `}` -/
def Delim (r : List Char) : Prop := r = [] ∨ ∃ c t, r = c :: t ∧ c ∈ [',', ']', '}']

theorem plain_inj {a : List Char} : ∀ {b r r' : List Char}, (∀ c ∈ a, c ∉ [',', ']', '}']) → (∀ c ∈ b, c ∉ [',', ']', '}']) →
    Delim r → Delim r' → a ++ r = b ++ r' → a = b ∧ r = r' := by
  induction a with
  | nil =>
    intro b r r' _ hb hr hr' h
    cases b with
    | nil => exact ⟨rfl, h⟩
    | cons c b =>
      rcases hr with rfl | ⟨d, t, rfl, hd⟩
      · simp at h
      · simp only [List.nil_append, List.cons_append, List.cons.injEq] at h
        exact absurd (h.1 ▸ hd) (hb c (by simp))
  | cons c a ih =>
    intro b r r' ha hb hr hr' h
    cases b with
    | nil =>
      rcases hr' with rfl | ⟨d, t, rfl, hd⟩
      · simp at h
      · simp only [List.nil_append, List.cons_append, List.cons.injEq] at h
        exact absurd (h.1 ▸ hd) (ha c (by simp))
    | cons d b =>
      simp only [List.cons_append, List.cons.injEq] at h
      obtain ⟨rfl, h⟩ := h
      obtain ⟨hq, g⟩ := ih (fun x hx => ha x (by simp [hx])) (fun x hx => hb x (by simp [hx])) hr hr' h
      clear h
      subst hq
      have h := g
      clear g
      exact ⟨rfl, h⟩

/-- kind of a value's text, by its first character -/
theorem enc_head (N : NumText K) (v : Val K) : ∃ c r, enc N v = c :: r ∧ c ≠ ']' ∧
    (match v with
    | .none => c = 'n'
    | .bool true => c = 't'
    | .bool false => c = 'f'
    | .num _ => c ∉ ['n', 't', 'f', '"', '[', '{', ']', '}']
    | .str _ => c = '"'
    | .list _ => c = '['
    | .dict _ => c = '{') := by
  match v with
  | .none => exact ⟨_, _, by simp only [enc]; rfl, by decide, rfl⟩
  | .bool true => exact ⟨_, _, by simp only [enc]; rfl, by decide, rfl⟩
  | .bool false => exact ⟨_, _, by simp only [enc]; rfl, by decide, rfl⟩
  | .num x =>
    obtain ⟨c, r, h1, h2⟩ := N.head x
    refine ⟨c, r, by simp [enc, h1], ?_, h2⟩
    rintro rfl
    exact h2 (by decide)
  | .str s => exact ⟨_, _, by simp only [enc, quote]; rfl, by decide, rfl⟩
  | .list [] => exact ⟨_, _, by simp only [enc]; rfl, by decide, rfl⟩
  | .list (_ :: _) => exact ⟨_, _, by simp only [enc]; rfl, by decide, rfl⟩
  | .dict [] => exact ⟨_, _, by simp only [enc]; rfl, by decide, rfl⟩
  | .dict (_ :: _) => exact ⟨_, _, by simp only [enc]; rfl, by decide, rfl⟩

theorem delim_encL (N : NumText K) (l : List (Val K)) (r : List Char) : Delim (encL N l ++ r) := by
  cases l
  · exact .inr ⟨']', r, by simp [encL], by decide⟩
  · exact .inr ⟨',', _, by simp [encL]; rfl, by decide⟩

theorem delim_encD (N : NumText K) (l : List (String × Val K)) (r : List Char) : Delim (encD N l ++ r) := by
  cases l
  · exact .inr ⟨'}', r, by simp [encD], by decide⟩
  · exact .inr ⟨',', _, by simp [encD]; rfl, by decide⟩

mutual
/-- the text of a value determines the value, whatever may follow it -/
theorem enc_inj (N : NumText K) (v w : Val K) (r r' : List Char) (hr : Delim r) (hr' : Delim r')
    (h : enc N v ++ r = enc N w ++ r') : v = w ∧ r = r' := by
  have hv := enc_head N v
  have hw := enc_head N w
  obtain ⟨c, t, h1, h2, h3⟩ := hv
  obtain ⟨d, t', k1, k2, k3⟩ := hw
  have hcd : c = d := by
    rw [h1, k1] at h
    simp only [List.cons_append, List.cons.injEq] at h
    exact h.1
  subst hcd
  match v, w with
  | .none, .none => simpa [enc] using h
  | .bool true, .bool true => simpa [enc] using h
  | .bool false, .bool false => simpa [enc] using h
  | .num x, .num y =>
    simp only [enc] at h
    obtain ⟨h5, h6⟩ := plain_inj (N.plain x) (N.plain y) hr hr' h
    exact ⟨by rw [N.inj h5], h6⟩
  | .str s, .str u =>
    simp only [enc] at h
    obtain ⟨hq, g⟩ := quote_inj h
    clear h
    subst hq
    have h := g
    clear g
    exact ⟨rfl, h⟩
  | .list [], .list [] => simpa [enc] using h
  | .list [], .list (w :: l') =>
    simp only [enc, List.cons_append, List.cons.injEq, true_and, List.append_assoc] at h
    obtain ⟨x, t, hx, hn, _⟩ := enc_head N w
    rw [hx] at h
    simp only [List.cons_append, List.cons.injEq] at h
    exact absurd h.1.symm hn
  | .list (v :: l), .list [] =>
    simp only [enc, List.cons_append, List.cons.injEq, true_and, List.append_assoc] at h
    obtain ⟨x, t, hx, hn, _⟩ := enc_head N v
    rw [hx] at h
    simp only [List.cons_append, List.cons.injEq] at h
    exact absurd h.1 hn
  | .list (v :: l), .list (w :: l') =>
    simp only [enc, List.cons_append, List.cons.injEq, true_and, List.append_assoc] at h
    obtain ⟨hq, g⟩ := enc_inj N v w _ _ (delim_encL N l r) (delim_encL N l' r') h
    clear h
    subst hq
    have h := g
    clear g
    obtain ⟨hq, g⟩ := encL_inj N l l' r r' h
    clear h
    subst hq
    have h := g
    clear g
    exact ⟨rfl, h⟩
  | .dict [], .dict [] => simpa [enc] using h
  | .dict [], .dict (p :: d) => simp [enc, quote] at h
  | .dict (p :: d), .dict [] => simp [enc, quote] at h
  | .dict (p :: d), .dict (q :: e) =>
    simp only [enc, List.cons_append, List.cons.injEq, true_and, List.append_assoc] at h
    obtain ⟨hk, h⟩ := quote_inj h
    simp only [List.cons.injEq, true_and] at h
    obtain ⟨hpq, h⟩ := enc_inj N p.2 q.2 _ _ (delim_encD N d r) (delim_encD N e r') h
    obtain ⟨hq, g⟩ := encD_inj N d e r r' h
    clear h
    subst hq
    have h := g
    clear g
    rw [Prod.ext hk hpq]
    exact ⟨rfl, h⟩
  | .none, .bool true | .none, .bool false | .none, .num _ | .none, .str _ | .none, .list _ | .none, .dict _
  | .bool true, .none | .bool true, .bool false | .bool true, .num _ | .bool true, .str _ | .bool true, .list _
  | .bool true, .dict _ | .bool false, .none | .bool false, .bool true | .bool false, .num _ | .bool false, .str _
  | .bool false, .list _ | .bool false, .dict _ | .num _, .none | .num _, .bool true | .num _, .bool false
  | .num _, .str _ | .num _, .list _ | .num _, .dict _ | .str _, .none | .str _, .bool true | .str _, .bool false
  | .str _, .num _ | .str _, .list _ | .str _, .dict _ | .list _, .none | .list _, .bool true | .list _, .bool false
  | .list _, .num _ | .list _, .str _ | .list _, .dict _ | .dict _, .none | .dict _, .bool true | .dict _, .bool false
  | .dict _, .num _ | .dict _, .str _ | .dict _, .list _ => exfalso; simp_all
theorem encL_inj (N : NumText K) (l l' : List (Val K)) (r r' : List Char) (h : encL N l ++ r = encL N l' ++ r') :
    l = l' ∧ r = r' := by
  match l, l' with
  | [], [] => simpa [encL] using h
  | [], w :: l' => simp [encL] at h
  | v :: l, [] => simp [encL] at h
  | v :: l, w :: l' =>
    simp only [encL, List.cons_append, List.cons.injEq, true_and, List.append_assoc] at h
    obtain ⟨hq, g⟩ := enc_inj N v w _ _ (delim_encL N l r) (delim_encL N l' r') h
    clear h
    subst hq
    have h := g
    clear g
    obtain ⟨hq, g⟩ := encL_inj N l l' r r' h
    clear h
    subst hq
    have h := g
    clear g
    exact ⟨rfl, h⟩
theorem encD_inj (N : NumText K) (l l' : List (String × Val K)) (r r' : List Char)
    (h : encD N l ++ r = encD N l' ++ r') : l = l' ∧ r = r' := by
  match l, l' with
  | [], [] => simpa [encD] using h
  | [], w :: l' => simp [encD] at h
  | v :: l, [] => simp [encD] at h
  | p :: d, q :: e =>
    simp only [encD, List.cons_append, List.cons.injEq, true_and, List.append_assoc] at h
    obtain ⟨hk, h⟩ := quote_inj h
    simp only [List.cons.injEq, true_and] at h
    obtain ⟨hpq, h⟩ := enc_inj N p.2 q.2 _ _ (delim_encD N d r) (delim_encD N e r') h
    obtain ⟨hq, g⟩ := encD_inj N d e r r' h
    clear h
    subst hq
    have h := g
    clear g
    rw [Prod.ext hk hpq]
    exact ⟨rfl, h⟩
end

theorem dumps_eq_iff (N : NumText K) (v w : Val K) : dumps N v = dumps N w ↔ norm v = norm w := by
  constructor
  · intro h
    unfold dumps at h
    exact (enc_inj N _ _ [] [] (.inl rfl) (.inl rfl) (by simpa using h)).1
  · intro h; unfold dumps; rw [h]

end Verif.Pkg
