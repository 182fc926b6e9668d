import Verif.Lexer.Lemmas
import Mathlib.Data.Nat.Digits.Defs
import Mathlib.Tactic.Ring

/-! C22 (termination, EOF, indentation balance), C72 (coverage), C73 (line continuation). -/

namespace Verif.Lexer

/-! ### termination -/

/-- decreases in every round -/
def measure (s : St) : Nat :=
  3 * s.rest.length + (if s.als then 1 else 0) + 2 * (s.indents.length - 1) + 2 * s.pending.length

theorem popDedent_length (i : Nat) (st : List Nat) :
    (popDedent i st).1 + (popDedent i st).2.length = st.length := by
  induction st with
  | nil => rfl
  | cons t st ih =>
    unfold popDedent
    split_ifs
    · simp only [List.length_cons]; omega
    · simp

theorem als_le (b : Bool) : (if b then 1 else 0 : Nat) ≤ 1 := by cases b <;> decide

theorem trans_measure {s s' : St} {t : Tok} (h : Trans s t s') (ht : t.kind ≠ "EOF") : measure s' < measure s := by
  cases h with
  | pend t p hp => simp only [measure, hp, List.length_cons]; omega
  | indent w r hp ha hd hr hg hi =>
    simp only [measure, ha, hr, List.length_append, List.length_cons, if_true]
    simp only [Bool.false_eq_true, if_false]
    omega
  | dedent r i k st hp ha hd hg hpop hst =>
    have h1 := popDedent_length i s.indents
    rw [hpop] at h1
    have h2 := hg.length
    simp only [measure, ha, if_true, List.length_replicate, Bool.false_eq_true, if_false] at *
    omega
  | lenient r i k st hp ha hd hg hpop hst =>
    have h1 := popDedent_length i s.indents
    rw [hpop] at h1
    have h2 := hg.length
    simp only [measure, ha, if_true, List.length_replicate, Bool.false_eq_true, if_false, List.length_cons] at *
    omega
  | eofd a k hp hg hk =>
    have h2 := hg.length
    simp only [measure, List.length_replicate, List.length_nil, List.length_drop, hk]
    have := als_le a
    omega
  | eof a hp hg hk => exact absurd rfl ht
  | newline r hp hd hg =>
    have := hg.length
    simp only [measure, List.length_cons, if_true] at *
    omega
  | real l t r a hp hg hr =>
    have h1 := hg.length
    have h2 := als_le a
    have h3 : t.lexeme.length ≠ 0 := fun h => hr.2.1 (List.length_eq_zero_iff.mp h)
    rw [hr.1, List.length_append] at h1
    simp only [measure]
    omega
  | brk c r a k d hp hg hb =>
    have h1 := hg.length
    have h2 := als_le a
    simp only [measure, List.length_cons] at *
    omega

theorem run_total (U : Uni) (n : Nat) : ∀ s : St, measure s < n → ∃ r, run U n s = some r := by
  induction n with
  | zero => intro s h; omega
  | succ n ih =>
    intro s h
    rw [run]
    cases hs : step U s with
    | fail e => exact ⟨_, rfl⟩
    | again s' =>
      obtain ⟨-, -, r, hg, rfl⟩ := step_again hs
      refine ih _ ?_
      have h1 := hg.length
      simp only [measure, List.length_cons, if_true] at *
      omega
    | emit t s' =>
      simp only
      split_ifs with ht
      · exact ⟨_, rfl⟩
      · obtain ⟨r, hr⟩ := ih s' (by have := trans_measure (step_emit hs) ht; omega)
        rw [hr]; exact ⟨_, rfl⟩

/-- C22: every source text is tokenized in finitely many rounds (at most three per character, plus two): the
outcome is a lexer error or a token list. -/
theorem C22_terminates (U : Uni) (src : List Char) : ∃ r, tokenize U src = some r := by
  apply run_total
  simp only [measure, St.init, fuel]
  simp

/-- the number of rounds does not matter once it is enough -/
theorem run_mono (U : Uni) (n : Nat) : ∀ (s : St) (r), run U n s = some r → run U (n + 1) s = some r := by
  induction n with
  | zero => intro s r h; simp [run] at h
  | succ n ih =>
    intro s r h
    rw [run] at h ⊢
    cases hs : step U s with
    | fail e => rw [hs] at h; exact h
    | again s' => rw [hs] at h; exact ih _ _ h
    | emit t s' =>
      rw [hs] at h
      simp only at h ⊢
      split_ifs at h ⊢ with ht
      · exact h
      · simp only [Option.map_eq_some_iff] at h ⊢
        obtain ⟨r', h1, h2⟩ := h
        exact ⟨r', ih _ _ h1, h2⟩

/-! ### invariants -/

/-- what holds of every reachable state -/
structure Inv (s : St) : Prop where
  pend : ∀ t ∈ s.pending, t = dedentTok
  bottom : s.indents.getLast? = some 0

theorem inv_init (src : List Char) : Inv (St.init src) :=
  ⟨fun t h => by simp [St.init] at h, rfl⟩

theorem popDedent_bottom (i : Nat) (st : List Nat) (h : st.getLast? = some 0) :
    (popDedent i st).2.getLast? = some 0 := by
  induction st with
  | nil => simp at h
  | cons t st ih =>
    unfold popDedent
    split_ifs with hi
    · simp only
      apply ih
      cases st with
      | nil => simp at h; omega
      | cons u st => rw [List.getLast?_cons_cons] at h; exact h
    · exact h

theorem getLast_cons {a : Nat} {l : List Nat} (h : l.getLast? = some 0) : (a :: l).getLast? = some 0 := by
  cases l with
  | nil => simp at h
  | cons b l => rw [List.getLast?_cons_cons]; exact h

theorem trans_inv {s s' : St} {t : Tok} (h : Trans s t s') (hi : Inv s) : Inv s' := by
  have rep : ∀ k, ∀ u ∈ List.replicate k dedentTok, u = dedentTok := fun k u hu => List.eq_of_mem_replicate hu
  cases h with
  | pend t p hp => exact ⟨fun u hu => hi.pend u (by rw [hp]; exact List.mem_cons_of_mem _ hu), hi.bottom⟩
  | indent w r hp ha hd hr hg hlt => exact ⟨hi.pend, getLast_cons hi.bottom⟩
  | dedent r i k st hp ha hd hg hpop hst =>
    have := popDedent_bottom i _ hi.bottom
    rw [hpop] at this
    exact ⟨rep k, this⟩
  | lenient r i k st hp ha hd hg hpop hst =>
    have := popDedent_bottom i _ hi.bottom
    rw [hpop] at this
    exact ⟨rep k, getLast_cons this⟩
  | eofd a k hp hg hk =>
    refine ⟨rep k, ?_⟩
    simp only
    rw [List.getLast?_drop, if_neg (by omega)]
    exact hi.bottom
  | eof a hp hg hk => exact ⟨hi.pend, hi.bottom⟩
  | newline r hp hd hg => exact ⟨hi.pend, hi.bottom⟩
  | real l t r a hp hg hr => exact ⟨hi.pend, hi.bottom⟩
  | brk c r a k d hp hg hb => exact ⟨hi.pend, hi.bottom⟩

/-- induction over a successful run -/
theorem run_induct (U : Uni) (P : St → List Tok → Nat → Prop)
    (hagain : ∀ s r ts k, Inv s → s.pending = [] → 0 < s.depth → Gap s.rest ('\n' :: r) →
      P { s with rest := r, als := true } ts k → P s ts k)
    (heof : ∀ s t s', Inv s → Trans s t s' → t.kind = "EOF" → P s [t] s'.odd)
    (hemit : ∀ s t s' ts k, Inv s → Trans s t s' → t.kind ≠ "EOF" → P s' ts k → P s (t :: ts) k) :
    ∀ n s ts k, Inv s → run U n s = some (.ok (ts, k)) → P s ts k := by
  intro n
  induction n with
  | zero => intro s ts k _ h; simp [run] at h
  | succ n ih =>
    intro s ts k hi h
    rw [run] at h
    cases hs : step U s with
    | fail e => rw [hs] at h; simp at h
    | again s' =>
      rw [hs] at h
      obtain ⟨hp, hd, r, hg, rfl⟩ := step_again hs
      exact hagain s r ts k hi hp hd hg (ih _ _ _ ⟨hi.pend, hi.bottom⟩ h)
    | emit t s' =>
      rw [hs] at h
      simp only at h
      have ht := step_emit hs
      split_ifs at h with hk
      · simp at h
        obtain ⟨rfl, rfl⟩ := h
        exact heof _ _ _ hi ht hk
      · simp only [Option.map_eq_some_iff] at h
        obtain ⟨r, h1, h2⟩ := h
        obtain ⟨⟨ts', k'⟩, rfl, h3⟩ := except_map_ok h2
        simp at h3
        obtain ⟨rfl, rfl⟩ := h3
        exact hemit _ _ _ _ _ hi ht hk (ih _ _ _ (trans_inv ht hi) h1)

/-- C22: a token list ends in exactly one EOF. -/
theorem C22_one_eof (U : Uni) (src : List Char) (ts : List Tok) (k : Nat)
    (h : tokenize U src = some (.ok (ts, k))) :
    ∃ pre eof, ts = pre ++ [eof] ∧ eof.kind = "EOF" ∧ ∀ t ∈ pre, t.kind ≠ "EOF" := by
  refine run_induct U (fun _ ts _ => ∃ pre eof, ts = pre ++ [eof] ∧ eof.kind = "EOF" ∧ ∀ t ∈ pre, t.kind ≠ "EOF")
    ?_ ?_ ?_ _ _ _ _ (inv_init src) h
  · intro s r ts k _ _ _ _ h; exact h
  · intro s t s' _ _ hk; exact ⟨[], t, rfl, hk, by simp⟩
  · rintro s t s' ts k _ _ hk ⟨pre, eof, rfl, h1, h2⟩
    refine ⟨t :: pre, eof, rfl, h1, ?_⟩
    intro u hu
    rcases List.mem_cons.mp hu with rfl | hu
    · exact hk
    · exact h2 u hu

/-! ### balance -/

theorem kindCount_cons (k : String) (t : Tok) (ts : List Tok) :
    kindCount k (t :: ts) = kindCount k ts + if t.kind = k then 1 else 0 := by
  simp [kindCount, List.countP_cons]

/-- effect of one token on the balance equation -/
theorem trans_balance {s s' : St} {t : Tok} (h : Trans s t s') (hi : Inv s) (hk : t.kind ≠ "EOF") :
    s.odd ≤ s'.odd ∧
    (if t.kind = "DEDENT" then 1 else 0) + (s'.indents.length - 1) + s'.pending.length + s.odd =
    (if t.kind = "INDENT" then 1 else 0) + (s.indents.length - 1) + s.pending.length + s'.odd := by
  have hne : s.indents.length ≠ 0 := by
    intro e
    have := hi.bottom
    rw [List.length_eq_zero_iff.mp e] at this
    cases this
  have hI : ¬ indentTok.kind = "DEDENT" := by simp [indentTok]
  have hD : ¬ dedentTok.kind = "INDENT" := by simp [dedentTok]
  cases h with
  | pend t p hp =>
    have ht : t = dedentTok := hi.pend t (by rw [hp]; exact List.mem_cons_self)
    subst ht
    rw [hp]
    refine ⟨le_refl _, ?_⟩
    rw [if_pos (by rfl), if_neg hD]
    simp only [List.length_cons]; omega
  | indent w r hp ha hd hr hg hlt =>
    refine ⟨le_refl _, ?_⟩
    rw [if_neg hI, if_pos (by rfl)]
    simp only [List.length_cons]; omega
  | dedent r i k st hp ha hd hg hpop hst =>
    refine ⟨le_refl _, ?_⟩
    have h1 := popDedent_length i s.indents
    have h2 := popDedent_bottom i _ hi.bottom
    rw [hpop] at h1 h2
    have h3 : st.length ≠ 0 := by
      intro e; rw [List.length_eq_zero_iff.mp e] at h2; cases h2
    rw [if_neg hD, if_pos (by rfl), hp]
    simp only [List.length_replicate, List.length_nil] at *
    omega
  | lenient r i k st hp ha hd hg hpop hst =>
    refine ⟨Nat.le_succ _, ?_⟩
    have h1 := popDedent_length i s.indents
    have h2 := popDedent_bottom i _ hi.bottom
    rw [hpop] at h1 h2
    have h3 : st.length ≠ 0 := by
      intro e; rw [List.length_eq_zero_iff.mp e] at h2; cases h2
    rw [if_neg hD, if_pos (by rfl), hp]
    simp only [List.length_replicate, List.length_nil, List.length_cons] at *
    omega
  | eofd a k hp hg hk2 =>
    refine ⟨le_refl _, ?_⟩
    rw [if_neg hD, if_pos (by rfl), hp]
    simp only [List.length_replicate, List.length_nil, List.length_drop, hk2]
    omega
  | eof a hp hg hk2 => exact absurd rfl hk
  | newline r hp hd hg =>
    refine ⟨le_refl _, ?_⟩
    simp
  | real l t r a hp hg hr =>
    refine ⟨le_refl _, ?_⟩
    have h1 : t.kind ≠ "DEDENT" := fun e => hr.2.2 (by rw [e]; simp)
    have h2 : t.kind ≠ "INDENT" := fun e => hr.2.2 (by rw [e]; simp)
    rw [if_neg h1, if_neg h2]
  | brk c r a k d hp hg hb =>
    refine ⟨le_refl _, ?_⟩
    have : k ≠ "DEDENT" ∧ k ≠ "INDENT" := by
      unfold bracket at hb
      split_ifs at hb <;> (simp at hb; obtain ⟨rfl, -⟩ := hb; decide)
    simp only
    rw [if_neg this.1, if_neg this.2]

/-- C22: in the token list of any source, DEDENTs exceed INDENTs by exactly the number of dedents to a level that
was never indented to (`k`), and never get further ahead in any initial part. -/
theorem C22_indent_balance (U : Uni) (src : List Char) (ts : List Tok) (k : Nat)
    (h : tokenize U src = some (.ok (ts, k))) :
    kindCount "DEDENT" ts = kindCount "INDENT" ts + k ∧
    ∀ p, p <+: ts → kindCount "DEDENT" p ≤ kindCount "INDENT" p + k := by
  have key : ∀ n s ts k, Inv s → run U n s = some (.ok (ts, k)) → s.odd ≤ k ∧
      kindCount "DEDENT" ts + s.odd = kindCount "INDENT" ts + k + (s.indents.length - 1) + s.pending.length ∧
      ∀ p, p <+: ts →
        kindCount "DEDENT" p + s.odd ≤ kindCount "INDENT" p + k + (s.indents.length - 1) + s.pending.length := by
    refine run_induct U _ ?_ ?_ ?_
    · intro s r ts k _ _ _ _ h; exact h
    · intro s t s' hi ht hk
      cases ht with
      | eof a hp hg hlen =>
        refine ⟨le_refl _, ?_, ?_⟩
        · rw [hp]
          simp [kindCount]
          omega
        · intro p hpre
          have : p = [] ∨ p = [⟨"EOF", .none, []⟩] := by
            obtain ⟨q, hq⟩ := hpre
            cases p with
            | nil => exact Or.inl rfl
            | cons a p => simp at hq; right; rw [hq.1, hq.2.1]
          rcases this with rfl | rfl <;> simp [kindCount] <;> omega
      | pend t p hp =>
        have := hi.pend t (by rw [hp]; exact List.mem_cons_self)
        subst this; simp [dedentTok] at hk
      | indent => simp [indentTok] at hk
      | dedent => simp [dedentTok] at hk
      | lenient => simp [dedentTok] at hk
      | eofd => simp [dedentTok] at hk
      | newline => simp at hk
      | real l t r a hp hg hr => exact absurd (by rw [hk]; simp) hr.2.2
      | brk c r a k d hp hg hb =>
        unfold bracket at hb
        split_ifs at hb <;> (simp at hb; obtain ⟨rfl, -⟩ := hb; simp at hk)
    · rintro s t s' ts k hi ht hk ⟨h1, h2, h3⟩
      obtain ⟨b1, b2⟩ := trans_balance ht hi hk
      refine ⟨by omega, ?_, ?_⟩
      · rw [kindCount_cons, kindCount_cons]; omega
      · intro p hp
        cases p with
        | nil =>
          have := h3 [] (List.nil_prefix)
          simp only [kindCount, List.countP_nil] at *
          have hd : (if t.kind = "DEDENT" then 1 else 0 : Nat) + (if t.kind = "INDENT" then 1 else 0) ≤ 1 := by
            split_ifs with c1 c2 <;> first | omega | (rw [c1] at c2; simp at c2)
          omega
        | cons u p =>
          obtain ⟨q, hq⟩ := hp
          simp at hq
          obtain ⟨rfl, hq⟩ := hq
          have := h3 p ⟨q, hq⟩
          rw [kindCount_cons, kindCount_cons]; omega
  obtain ⟨-, h2, h3⟩ := key _ _ _ _ (inv_init src) h
  simp only [St.init] at h2 h3
  refine ⟨by simpa using h2, fun p hp => by simpa using h3 p hp⟩

/-- C22 (partial): when every dedent returns to an earlier level, INDENTs and DEDENTs balance and never go
negative. -/
theorem C22_balanced_partial (U : Uni) (src : List Char) (ts : List Tok)
    (h : tokenize U src = some (.ok (ts, 0))) :
    kindCount "DEDENT" ts = kindCount "INDENT" ts ∧
    ∀ p, p <+: ts → kindCount "DEDENT" p ≤ kindCount "INDENT" p := C22_indent_balance U src ts 0 h

/-- Non-vacuity: nested blocks. -/
example : (tokenize asciiUni "if a:\n  if b:\n    x\ny".toList).map
      (fun r => r.toOption.map fun (ts, k) => (ts.map Tok.kind, k)) =
    some (some (["IF", "IDENTIFIER", "COLON", "NEWLINE", "INDENT", "IF", "IDENTIFIER", "COLON", "NEWLINE",
      "INDENT", "IDENTIFIER", "NEWLINE", "DEDENT", "DEDENT", "IDENTIFIER", "EOF"], 0)) := by decide +kernel

/-- C22 (violated): a dedent to a level never indented to is accepted, and later yields a DEDENT without an
INDENT. -/
theorem C22_lenient_dedent_unbalanced :
    (tokenize asciiUni "    a\n  b\nc".toList).map (fun r => r.toOption.map fun (ts, k) => (ts.map Tok.kind, k)) =
    some (some (["INDENT", "IDENTIFIER", "NEWLINE", "DEDENT", "IDENTIFIER", "NEWLINE", "DEDENT", "IDENTIFIER",
      "EOF"], 1)) := by decide +kernel

/-! ### C72 coverage -/

theorem trans_gap {s s' : St} {t : Tok} (h : Trans s t s') (hi : Inv s) :
    Gap s.rest (t.lexeme ++ s'.rest) := by
  cases h with
  | pend t p hp =>
    have ht : t = dedentTok := hi.pend t (by rw [hp]; exact List.mem_cons_self)
    subst ht
    exact .refl _
  | indent w r hp ha hd hr hg hlt => exact hg
  | dedent r i k st hp ha hd hg hpop hst => exact hg
  | lenient r i k st hp ha hd hg hpop hst => exact hg
  | eofd a k hp hg hk => exact hg
  | eof a hp hg hk => exact hg
  | newline r hp hd hg => exact hg
  | real l t r a hp hg hr => simp only; rw [← hr.1]; exact hg
  | brk c r a k d hp hg hb => exact hg

/-- C72: nothing is lost or invented: the source is the concatenation of the tokens' lexemes with nothing
but blanks, newlines and comments in between. -/
theorem C72_covers (U : Uni) (src : List Char) (ts : List Tok) (k : Nat)
    (h : tokenize U src = some (.ok (ts, k))) : Covers src ts := by
  have key : ∀ n s ts k, Inv s → run U n s = some (.ok (ts, k)) → Covers s.rest ts := by
    refine run_induct U _ ?_ ?_ ?_
    · intro s r ts k _ _ _ hg h
      have hg2 : Gap s.rest r := hg.trans (.blank _ _ _ (Or.inr (Or.inr rfl)) (.refl _))
      cases h with
      | nil _ h => exact .nil _ (hg2.trans h)
      | cons _ t r' ts h1 h2 => exact .cons _ _ _ _ (hg2.trans h1) h2
    · intro s t s' hi ht hk
      have hr : s'.rest = [] := by
        cases ht with
        | eof a hp hg hlen => rfl
        | pend t p hp =>
          have := hi.pend t (by rw [hp]; exact List.mem_cons_self)
          subst this; simp [dedentTok] at hk
        | indent => simp [indentTok] at hk
        | dedent => simp [dedentTok] at hk
        | lenient => simp [dedentTok] at hk
        | eofd => rfl
        | newline => simp at hk
        | real l t r a hp hg hr => exact absurd (by rw [hk]; simp) hr.2.2
        | brk c r a k d hp hg hb =>
          unfold bracket at hb
          split_ifs at hb <;> (simp at hb; obtain ⟨rfl, -⟩ := hb; simp at hk)
      have hg := trans_gap ht hi
      rw [hr] at hg
      exact .cons _ _ [] _ hg (.nil _ (.refl _))
    · intro s t s' ts k hi ht hk h
      exact .cons _ _ _ _ (trans_gap ht hi) h
  exact key _ _ _ _ (inv_init src) h

/-! ### C73 line continuation -/

/-- one token's effect on the open bracket count -/
def bstep (d : Nat) (t : Tok) : Nat :=
  if t.kind ∈ ["LPAREN", "LBRACKET", "LBRACE"] then d + 1
  else if t.kind ∈ ["RPAREN", "RBRACKET", "RBRACE"] then d - 1 else d

theorem trans_depth {s s' : St} {t : Tok} (h : Trans s t s') (hi : Inv s) :
    s'.depth = bstep s.depth t ∧ (t.kind = "NEWLINE" ∨ t.kind = "INDENT" → s.depth = 0) := by
  cases h with
  | pend t p hp =>
    have ht : t = dedentTok := hi.pend t (by rw [hp]; exact List.mem_cons_self)
    subst ht
    refine ⟨rfl, ?_⟩
    intro h; simp [dedentTok] at h
  | indent w r hp ha hd hr hg hlt => exact ⟨rfl, fun _ => hd⟩
  | dedent r i k st hp ha hd hg hpop hst => exact ⟨rfl, fun _ => hd⟩
  | lenient r i k st hp ha hd hg hpop hst => exact ⟨rfl, fun _ => hd⟩
  | eofd a k hp hg hk =>
    refine ⟨rfl, ?_⟩
    intro h; simp [dedentTok] at h
  | eof a hp hg hk =>
    refine ⟨rfl, ?_⟩
    intro h; simp at h
  | newline r hp hd hg => exact ⟨rfl, fun _ => hd⟩
  | real l t r a hp hg hr =>
    have hk := hr.2.2
    simp only [List.mem_cons, List.not_mem_nil, or_false, not_or] at hk
    constructor
    · simp only [bstep]
      rw [if_neg (by simp; tauto), if_neg (by simp; tauto)]
    · intro h; tauto
  | brk c r a k d hp hg hb =>
    unfold bracket at hb
    split_ifs at hb <;> (simp at hb; obtain ⟨rfl, rfl⟩ := hb; refine ⟨rfl, ?_⟩; intro h; simp at h)

/-- C73: inside brackets no NEWLINE and no INDENT token is produced, whatever the layout of the text. -/
theorem C73_line_continuation (U : Uni) (src : List Char) (ts : List Tok) (k : Nat)
    (h : tokenize U src = some (.ok (ts, k))) (p q : List Tok) (t : Tok) (he : ts = p ++ t :: q)
    (ht : t.kind = "NEWLINE" ∨ t.kind = "INDENT") : openBrackets p = 0 := by
  have key : ∀ n s ts k, Inv s → run U n s = some (.ok (ts, k)) →
      ∀ p q t, ts = p ++ t :: q → t.kind = "NEWLINE" ∨ t.kind = "INDENT" → p.foldl bstep s.depth = 0 := by
    refine run_induct U _ ?_ ?_ ?_
    · intro s r ts k _ _ _ hg h; exact h
    · intro s t s' hi ht hk p q u he hu
      cases p with
      | nil =>
        simp at he
        rw [← he.1] at hu
        rw [hk] at hu; simp at hu
      | cons a p => simp at he
    · intro s t s' ts k hi ht hk h p q u he hu
      cases p with
      | nil =>
        simp at he
        rw [← he.1] at hu
        exact (trans_depth ht hi).2 hu
      | cons a p =>
        simp at he
        obtain ⟨rfl, he⟩ := he
        rw [List.foldl_cons, ← (trans_depth ht hi).1]
        exact h p q u he hu
  exact key _ _ _ _ (inv_init src) h p q t he ht

/-- Non-vacuity: a call spread over three lines. -/
example : (tokenize asciiUni "f(a,\n     b\n)\n".toList).map (fun r => r.toOption.map fun (ts, k) => (ts.map Tok.kind, k)) =
    some (some (["IDENTIFIER", "LPAREN", "IDENTIFIER", "COMMA", "IDENTIFIER", "RPAREN", "NEWLINE", "EOF"], 0)) := by
  decide +kernel

end Verif.Lexer
