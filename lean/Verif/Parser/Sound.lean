import Verif.Parser.Lemmas

/-! Soundness: whatever the parser accepts is a phrase of the grammar. -/

namespace Verif.Parser

open Verif.Lexer

theorem cur_cons {s : List Tok} {k : String} (h : cur s = k) (hk : k ≠ "EOF") :
    ∃ a r, s = a :: r ∧ a.kind = k ∧ adv s = r ∧ val s = a.val := by
  cases s with
  | nil => exact absurd h.symm hk
  | cons a r => exact ⟨a, r, rfl, h, by simp [adv, h, hk], rfl⟩

theorem consume_ok {k : String} {s : List Tok} {p : TVal × List Tok} (h : consume k s = .ok p) (hk : k ≠ "EOF") :
    ∃ a, s = a :: p.2 ∧ a.kind = k ∧ p.1 = a.val := by
  unfold consume at h
  split at h
  · rename_i hc
    obtain ⟨a, r, rfl, ha, had, hv⟩ := cur_cons hc hk
    injection h with h
    subst h
    exact ⟨a, by rw [had], ha, hv⟩
  · cases h

/-- what may follow a statement that ends this way -/
def stopOK (b : Stop) (rest : List Tok) : Prop :=
  match b with
  | .any => True
  | .blockEnd => cur rest = "EOF" ∨ cur rest = "DEDENT" ∨ cur rest = "RBRACE"
  | .dedentEnd => cur rest = "EOF" ∨ cur rest = "DEDENT"
  | .textEnd => cur rest = "EOF"

theorem terminator_ok {s s' : List Tok} (h : terminator s = .ok s') :
    ∃ b we, s = we ++ s' ∧ Term b we ∧ stopOK b s' := by
  unfold terminator at h
  split at h
  · rename_i hc
    injection h with h; subst h
    exact ⟨_, [], rfl, .none, .inl hc⟩
  split at h
  · rename_i hc
    injection h with h; subst h
    obtain ⟨a, r, rfl, ha, had, _⟩ := cur_cons hc (by decide)
    rw [had]
    exact ⟨_, [a], rfl, .newline ha, trivial⟩
  split at h
  · rename_i hc
    injection h with h; subst h
    exact ⟨_, [], rfl, .none, .inr (.inl hc)⟩
  split at h
  · rename_i hc
    injection h with h; subst h
    exact ⟨_, [], rfl, .none, .inr (.inr hc)⟩
  split at h
  · rename_i hc
    injection h with h; subst h
    obtain ⟨a, r, rfl, ha, had, _⟩ := cur_cons hc (by decide)
    rw [had]
    exact ⟨_, [a], rfl, .semi ha, trivial⟩
  · cases h

theorem skipNl_split (s : List Tok) : ∃ ns, s = ns ++ skipNl s ∧ ∀ a ∈ ns, a.kind = "NEWLINE" := by
  induction s with
  | nil => exact ⟨[], rfl, by simp⟩
  | cons a r ih =>
    unfold skipNl
    split
    · rename_i h
      obtain ⟨ns, he, hn⟩ := ih
      exact ⟨a :: ns, by simp [← he], by simpa [h] using hn⟩
    · exact ⟨[], rfl, by simp⟩

/-- tokens that continue a postfix expression -/
def postTok (k : String) : Bool := k = "LPAREN" || k = "DOT" || k = "LBRACKET"

/-- an `if` that follows does not make a conditional expression -/
def IfFree (rest : List Tok) : Prop :=
  cur rest = "IF" → ∀ n c s', parse n (.bin 0) (adv rest) = .ok (c, s') → cur s' ≠ "ELSE"

/-- what cannot follow a phrase that ends this way -/
structure Base (t : Tail) (rest : List Tok) : Prop where
  noElse : t.noElse = true → cur rest ≠ "ELSE" ∧ cur rest ≠ "ELIF"
  lam : t.lam = true → prec (cur rest) = none ∧ postTok (cur rest) = false ∧ IfFree rest
  dot : t.dot = true → cur rest ≠ "LPAREN"

/-- what cannot follow a phrase of this kind -/
def Fol : Sym → Tail → List Tok → Prop
  | .expr, t, rest => Base t rest ∧ prec (cur rest) = none ∧ postTok (cur rest) = false ∧ IfFree rest
  | .bin m, t, rest => Base t rest ∧ postTok (cur rest) = false ∧ ∀ p, prec (cur rest) = some p → p < m
  | .unary, t, rest => Base t rest ∧ postTok (cur rest) = false
  | .post, t, rest => Base t rest ∧ postTok (cur rest) = false
  | .prim, t, rest => Base t rest
  | .ifParts, t, rest => Base t rest
  | .stmts c, t, rest => stopOK t.stop rest ∧ (cur rest = blockClose c ∨ cur rest = "EOF")
  | .stmt, t, rest => stopOK t.stop rest ∧ (t.noElse = true → cur rest ≠ "ELSE" ∧ cur rest ≠ "ELIF")
  | .clauses, _, rest => cur rest ≠ "FOR"
  | .conds, _, rest => cur rest ≠ "IF"
  | .elifs, _, rest => cur rest ≠ "ELIF"
  | _, _, _ => True

/-- the soundness claim for one method -/
def Post : (s : Sym) → Val s → List Tok → List Tok → Prop
  | .binLoop m l, v, toks, rest => ∀ q tl wl, D (.bin q) l tl wl → m ≤ q → Base tl toks → postTok (cur toks) = false →
      (∀ p, prec (cur toks) = some p → m ≤ p → leftLevel (cur toks) p ≤ q) →
      ∃ w t, toks = w ++ rest ∧ D (.bin m) v t (wl ++ w) ∧ Fol (.bin m) t rest
  | .postLoop e, v, toks, rest => ∀ te we, D .post e te we → Base te toks →
      ∃ w t, toks = w ++ rest ∧ D .post v t (we ++ w) ∧ Fol .post t rest
  | s, v, toks, rest => ∃ w t, toks = w ++ rest ∧ D s v t w ∧ Fol s t rest

theorem Base.closed (rest : List Tok) : Base {} rest := ⟨by simp, by simp, by simp⟩

theorem bin_weaken {q m : Nat} {v t w} (h : D (.bin q) v t w) (hm : m ≤ q) : D (.bin m) v t w := by
  cases h with
  | operand h => exact .operand h
  | op hp hq hl hlam hr => exact .op hp (Nat.le_trans hm hq) hl hlam hr

theorem ite_cases {c : Prop} [Decidable c] {a p : Nat} {x : Option Nat} (h : (if c then some a else x) = some p) :
    (c ∧ a = p) ∨ x = some p := by
  split at h
  · exact .inl ⟨‹_›, Option.some.inj h⟩
  · exact .inr h

theorem prec_mem {k : String} {p : Nat} : prec k = some p ↔ (k, p) ∈ opLevel := by
  unfold prec
  constructor
  · intro h
    iterate 15
      rcases ite_cases h with ⟨rfl, rfl⟩ | h
      · decide
    cases h
  · intro h
    simp only [opLevel, List.mem_cons, Prod.mk.injEq, List.not_mem_nil, or_false] at h
    rcases h with ⟨rfl, rfl⟩ | ⟨rfl, rfl⟩ | ⟨rfl, rfl⟩ | ⟨rfl, rfl⟩ | ⟨rfl, rfl⟩ | ⟨rfl, rfl⟩ | ⟨rfl, rfl⟩ |
      ⟨rfl, rfl⟩ | ⟨rfl, rfl⟩ | ⟨rfl, rfl⟩ | ⟨rfl, rfl⟩ | ⟨rfl, rfl⟩ | ⟨rfl, rfl⟩ | ⟨rfl, rfl⟩ | ⟨rfl, rfl⟩ <;> rfl

theorem prec_seven {k : String} (h : prec k = some 7) : k = "DOUBLE_STAR" := by
  have := prec_mem.1 h
  simp only [opLevel, List.mem_cons, Prod.mk.injEq, List.not_mem_nil, or_false] at this
  simpa using this

theorem prec_le {k : String} {p : Nat} (h : prec k = some p) : p ≤ 7 := by
  have := prec_mem.1 h
  simp only [opLevel, List.mem_cons, Prod.mk.injEq, List.not_mem_nil, or_false] at this
  omega

theorem prec_star : prec "DOUBLE_STAR" = some 7 := rfl

theorem prec_ne_eof {k : String} {p : Nat} (h : prec k = some p) : k ≠ "EOF" := by
  rintro rfl
  simp [prec] at h

variable {n : Nat}

/-- the induction hypothesis: the methods with recursion bound `n` are sound -/
abbrev IH (n : Nat) : Prop := ∀ s toks v rest, parse n s toks = .ok (v, rest) → Post s v toks rest

theorem sound_ty (ih : IH n) {toks v rest} (h : stepTy (parse n) toks = .ok (v, rest)) : Post .ty v toks rest := by
  replace h := bind_ok.1 h
  obtain ⟨⟨t, s'⟩, h1, h2⟩ := h
  have core : ∃ w, toks = w ++ s' ∧ D .ty t {} w ∧ ∀ b, t ≠ .opt b := by
    unfold stepTyCore at h1
    split at h1
    · rename_i hn
      obtain ⟨a, r, rfl, ha, had, hv⟩ := cur_cons (s := toks) rfl (by intro e; rw [e] at hn; simp [isName, typeKinds] at hn)
      rw [had, hv] at h1
      have hn' : isName a.kind = true := hn
      dsimp only at h1
      split at h1
      · rename_i hb
        obtain ⟨o, r', rfl, ho, hao, -⟩ := cur_cons hb (by decide)
        rw [hao] at h1
        replace h1 := bind_ok.1 h1
        obtain ⟨⟨x, s2⟩, h3, h1⟩ := h1
        replace h1 := bind_ok.1 h1
        obtain ⟨⟨xs, s3⟩, h4, h1⟩ := h1
        cases pure_ok.1 h1
        obtain ⟨w, u, rfl, hd, -⟩ := ih _ _ _ _ h3
        obtain ⟨w', u', rfl, hd', -⟩ := ih _ _ _ _ h4
        exact ⟨a :: o :: w ++ w', by simp, .tyGen hn' ho hd hd', by simp⟩
      split at h1
      · rename_i hb
        obtain ⟨o, r', rfl, ho, hao, -⟩ := cur_cons hb (by decide)
        rw [hao] at h1
        replace h1 := bind_ok.1 h1
        obtain ⟨⟨x, s2⟩, h3, h1⟩ := h1
        replace h1 := bind_ok.1 h1
        obtain ⟨⟨xs, s3⟩, h4, h1⟩ := h1
        cases pure_ok.1 h1
        obtain ⟨w, u, rfl, hd, -⟩ := ih _ _ _ _ h3
        obtain ⟨w', u', rfl, hd', -⟩ := ih _ _ _ _ h4
        exact ⟨a :: o :: w ++ w', by simp, .tyGenLt hn' ho hd hd', by simp⟩
      · cases pure_ok.1 h1
        exact ⟨[a], rfl, .tyName hn', by simp⟩
    · cases h1
  obtain ⟨w, rfl, hd, hno⟩ := core
  have h2 := pure_ok.1 h2
  unfold optMark at h2
  split at h2
  · rename_i hq
    obtain ⟨q, r, rfl, hk, had, -⟩ := cur_cons hq (by decide)
    rw [had] at h2
    cases h2
    exact ⟨w ++ [q], _, by simp, .tyOpt hd hno hk, trivial⟩
  · cases h2
    exact ⟨w, _, rfl, hd, trivial⟩

theorem sound_tyTail (ih : IH n) {c : Bool} {toks v rest}
    (h : stepTyTail (parse n) c toks = .ok (v, rest)) : Post (.tyTail c) v toks rest := by
  unfold stepTyTail at h
  split at h
  · rename_i hb
    obtain ⟨o, r', rfl, ho, hao, -⟩ := cur_cons hb (by decide)
    rw [hao] at h
    replace h := bind_ok.1 h
    obtain ⟨⟨x, s2⟩, h3, h⟩ := h
    replace h := bind_ok.1 h
    obtain ⟨⟨xs, s3⟩, h4, h⟩ := h
    cases pure_ok.1 h
    obtain ⟨w, u, rfl, hd, -⟩ := ih _ _ _ _ h3
    obtain ⟨w', u', rfl, hd', -⟩ := ih _ _ _ _ h4
    exact ⟨o :: w ++ w', _, by simp, .tyMore ho hd hd', trivial⟩
  · replace h := bind_ok.1 h
    obtain ⟨⟨x, s1⟩, h1, h⟩ := h
    obtain ⟨a, rfl, ha, -⟩ := consume_ok h1 (by cases c <;> decide)
    cases pure_ok.1 h
    cases c
    · exact ⟨[a], _, rfl, .tyEnd ha, trivial⟩
    · exact ⟨[a], _, rfl, .tyEndLt ha, trivial⟩

theorem sound_expr (ih : IH n) {toks v rest} (h : stepExpr (parse n) toks = .ok (v, rest)) :
    Post .expr v toks rest := by
  replace h := bind_ok.1 h
  obtain ⟨⟨a, s1⟩, h1, h⟩ := h
  obtain ⟨wa, ta, rfl, hda, hba, hpa, hqa⟩ := ih _ _ _ _ h1
  have hna : prec (cur s1) = none := by
    cases hp : prec (cur s1) with
    | none => rfl
    | some p => exact absurd (hqa p hp) (by omega)
  dsimp only at h
  split at h
  · rename_i hif
    replace h := bind_ok.1 h
    obtain ⟨⟨c, s2⟩, h2, h⟩ := h
    dsimp only at h
    split at h
    · rename_i hel
      replace h := bind_ok.1 h
      obtain ⟨⟨e, s3⟩, h3, h⟩ := h
      cases pure_ok.1 h
      obtain ⟨wc, tc, hs1, hdc, hbc, -, -⟩ := ih _ _ _ _ h2
      obtain ⟨we, te, hs2, hde, hfe⟩ := ih _ _ _ _ h3
      have hlam : ta.lam = false := by
        cases hl : ta.lam with
        | false => rfl
        | true => exact absurd hel ((hba.lam hl).2.2 hif _ _ _ h2)
      have hno : tc.noElse = false := by
        cases hl : tc.noElse with
        | false => rfl
        | true => exact absurd hel (hbc.noElse hl).1
      obtain ⟨i, r, rfl, hi, hai, -⟩ := cur_cons hif (by decide)
      rw [hai] at hs1
      subst hs1
      obtain ⟨l, r, rfl, hl, hal, -⟩ := cur_cons hel (by decide)
      rw [hal] at hs2
      subst hs2
      exact ⟨wa ++ i :: wc ++ l :: we, te, by simp, .cond hda hlam hi hdc hno hl hde, hfe⟩
    · rename_i hel
      cases pure_ok.1 h
      refine ⟨wa, ta, rfl, .expr hda, hba, hna, hpa, ?_⟩
      intro _ m c' s' hm
      have := parse_det hm h2
      cases this
      exact hel
  · rename_i hif
    cases pure_ok.1 h
    exact ⟨wa, ta, rfl, .expr hda, hba, hna, hpa, fun h => absurd h hif⟩

theorem sound_binLoop (ih : IH n) {m l toks v rest} (h : stepBinLoop (parse n) m l toks = .ok (v, rest)) :
    Post (.binLoop m l) v toks rest := by
  intro q tl wl hl hmq hbl hpl hq
  unfold stepBinLoop at h
  split at h
  · rename_i hp
    cases pure_ok.1 h
    exact ⟨[], tl, rfl, by simpa using bin_weaken hl hmq, hbl, hpl, by simp [hp]⟩
  · rename_i p hp
    split at h
    · rename_i hpm
      cases pure_ok.1 h
      exact ⟨[], tl, rfl, by simpa using bin_weaken hl hmq, hbl, hpl, by simp [hp, hpm]⟩
    · rename_i hpm
      replace h := bind_ok.1 h
      obtain ⟨⟨r, s1⟩, h1, h⟩ := h
      obtain ⟨wr, tr, hs, hdr, hbr, hpr, hqr⟩ := ih _ _ _ _ h1
      have hlv := hq p hp (by omega)
      have hlam : tl.lam = false := by
        cases hx : tl.lam with
        | false => rfl
        | true => have := (hbl.lam hx).1; rw [hp] at this; cases this
      obtain ⟨o, r', rfl, ho, hao, -⟩ := cur_cons (s := toks) rfl (prec_ne_eof hp)
      rw [hao] at hs
      subst hs
      have hk : cur (o :: (wr ++ s1)) = o.kind := rfl
      rw [hk] at hp hlv hdr hqr h
      have hd : D (.bin p) (.bin o.kind l r) tr (wl ++ o :: wr) :=
        .op (prec_mem.1 hp) (Nat.le_refl _) (bin_weaken hl hlv) hlam hdr
      obtain ⟨w, t, hs1, hdv, hf⟩ := ih _ _ _ _ h p tr _ hd (by omega) hbr hpr (by
        intro p' hp' hmp'
        have h8 := hqr p' hp'
        have h7 := prec_le hp'
        have h6 := prec_le hp
        unfold nextPrec at h8
        unfold leftLevel
        by_cases hs : cur s1 = "DOUBLE_STAR"
        · rw [hs] at hp'
          cases hp'
          simp only [hs, if_true]
          by_cases ho' : o.kind = "DOUBLE_STAR"
          · rw [ho'] at hp; cases hp; simp [ho'] at h8
          · simp only [ho', if_false] at h8
            have : p = 7 := by omega
            subst this
            exact absurd (prec_seven hp) ho'
        · simp only [hs, if_false]
          split at h8 <;> omega)
      exact ⟨o :: wr ++ w, t, by simp [hs1], by simpa using hdv, hf⟩

theorem sound_bin (ih : IH n) {m toks v rest} (h : stepBin (parse n) m toks = .ok (v, rest)) :
    Post (.bin m) v toks rest := by
  replace h := bind_ok.1 h
  obtain ⟨⟨l, s1⟩, h1, h⟩ := h
  obtain ⟨wl, tl, rfl, hl, hb, hp⟩ := ih _ _ _ _ h1
  obtain ⟨w, t, rfl, hd, hf⟩ := ih _ _ _ _ h (m + 8) tl wl (.operand hl) (by omega) hb hp (by
    intro p hp _
    have := prec_le hp
    unfold leftLevel
    split <;> omega)
  exact ⟨wl ++ w, t, by simp, hd, hf⟩

theorem sound_unary (ih : IH n) {toks v rest} (h : stepUnary (parse n) toks = .ok (v, rest)) :
    Post .unary v toks rest := by
  unfold stepUnary at h
  split at h
  · rename_i hk
    replace h := bind_ok.1 h
    obtain ⟨⟨e, s1⟩, h1, h⟩ := h
    cases pure_ok.1 h
    obtain ⟨w, t, hs, hd, hf⟩ := ih _ _ _ _ h1
    obtain ⟨o, r', rfl, ho, hao, -⟩ := cur_cons (s := toks) rfl (by rcases hk with hk | hk <;> rw [hk] <;> decide)
    rw [hao] at hs
    subst hs
    exact ⟨o :: w, t, rfl, .unary hk hd, hf⟩
  · obtain ⟨w, t, hs, hd, hf⟩ := ih _ _ _ _ h
    exact ⟨w, t, hs, .unPost hd, hf⟩

theorem sound_post (ih : IH n) {toks v rest} (h : stepPost (parse n) toks = .ok (v, rest)) :
    Post .post v toks rest := by
  replace h := bind_ok.1 h
  obtain ⟨⟨e, s1⟩, h1, h⟩ := h
  obtain ⟨we, te, rfl, hd, hb⟩ := ih _ _ _ _ h1
  obtain ⟨w, t, rfl, hd, hf⟩ := ih _ _ _ _ h te we (.prim hd) hb
  exact ⟨we ++ w, t, by simp, hd, hf⟩

theorem notLam {t : Tail} {s : List Tok} (h : Base t s) (hp : postTok (cur s) = true) : t.lam = false := by
  cases hx : t.lam with
  | false => rfl
  | true => have := (h.lam hx).2.1; rw [hp] at this; cases this

theorem sound_postLoop (ih : IH n) {e toks v rest} (h : stepPostLoop (parse n) e toks = .ok (v, rest)) :
    Post (.postLoop e) v toks rest := by
  intro te we he hb
  unfold stepPostLoop at h
  split at h
  · rename_i hc
    have hlam := notLam hb (by rw [hc]; rfl)
    have hdot : te.dot = false := by
      cases hx : te.dot with
      | false => rfl
      | true => exact absurd hc (hb.dot hx)
    obtain ⟨o, r', rfl, ho, hao, -⟩ := cur_cons hc (by decide)
    rw [hao] at h
    replace h := bind_ok.1 h
    obtain ⟨⟨as, s1⟩, h1, h⟩ := h
    obtain ⟨w', u, rfl, hd, -⟩ := ih _ _ _ _ h1
    obtain ⟨w, t, rfl, hd, hf⟩ := ih _ _ _ _ h {} _ (.call he hlam hdot ho hd) (Base.closed _)
    exact ⟨o :: w' ++ w, t, by simp, by simpa using hd, hf⟩
  split at h
  · rename_i hc
    have hlam := notLam hb (by rw [hc]; rfl)
    obtain ⟨d, r', rfl, hdk, had, -⟩ := cur_cons hc (by decide)
    rw [had] at h
    replace h := bind_ok.1 h
    obtain ⟨⟨m, s1⟩, h1, h⟩ := h
    obtain ⟨a, rfl, ha, hm⟩ := consume_ok h1 (by decide)
    dsimp only at hm h
    subst hm
    split at h
    · rename_i hc'
      obtain ⟨o, r'', rfl, ho, hao, -⟩ := cur_cons hc' (by decide)
      rw [hao] at h
      replace h := bind_ok.1 h
      obtain ⟨⟨as, s2⟩, h2, h⟩ := h
      obtain ⟨w', u, rfl, hd, -⟩ := ih _ _ _ _ h2
      obtain ⟨w, t, rfl, hd, hf⟩ := ih _ _ _ _ h {} _ (.method he hlam hdk ha ho hd) (Base.closed _)
      exact ⟨d :: a :: o :: w' ++ w, t, by simp, by simpa using hd, hf⟩
    · rename_i hc'
      obtain ⟨w, t, rfl, hd, hf⟩ := ih _ _ _ _ h { dot := true } _ (.member he hlam hdk ha)
        ⟨by simp, by simp, fun _ => hc'⟩
      exact ⟨d :: a :: w, t, by simp, by simpa using hd, hf⟩
  split at h
  · rename_i hc
    have hlam := notLam hb (by rw [hc]; rfl)
    obtain ⟨o, r', rfl, ho, hao, -⟩ := cur_cons hc (by decide)
    rw [hao] at h
    replace h := bind_ok.1 h
    obtain ⟨⟨i, s1⟩, h1, h⟩ := h
    replace h := bind_ok.1 h
    obtain ⟨⟨x, s2⟩, h2, h⟩ := h
    obtain ⟨c, rfl, hck, -⟩ := consume_ok h2 (by decide)
    obtain ⟨w', u, rfl, hd, -⟩ := ih _ _ _ _ h1
    obtain ⟨w, t, rfl, hd, hf⟩ := ih _ _ _ _ h {} _ (.index he hlam ho hd hck) (Base.closed _)
    exact ⟨o :: w' ++ c :: w, t, by simp, by simpa using hd, hf⟩
  · rename_i h1 h2 h3
    cases pure_ok.1 h
    exact ⟨[], te, rfl, by simpa using he, hb, by simp [postTok, h1, h2, h3]⟩

theorem moreNames_spec (s : List Tok) : ∀ t : Tok, t.kind = "IDENTIFIER" → cur (moreNames s).2 = "RPAREN" →
    ∃ w, s = w ++ (moreNames s).2 ∧ Params (t.val :: (moreNames s).1) (t :: w) := by
  induction s using moreNames.induct with
  | case1 => intro t ht h; simp [moreNames, cur] at h
  | case2 u hu => intro t ht h; simp [moreNames, hu, cur] at h
  | case3 u hu => intro t ht h; exact ⟨[], by simp [moreNames, hu], by simpa [moreNames, hu] using Params.one ht⟩
  | case4 c u s hc hu ns r hnr ih =>
    intro t ht h
    simp only [moreNames, hc, hu, if_true] at h ⊢
    obtain ⟨w, hw, hp⟩ := ih u hu h
    refine ⟨c :: u :: w, ?_, .cons ht hc hp⟩
    simp only [List.cons_append, List.cons.injEq, true_and]
    exact hw
  | case5 c u s hc hu =>
    intro t ht h
    simp only [moreNames, hc, hu, if_true, if_false] at h ⊢
    exact ⟨[c], rfl, .comma ht hc⟩
  | case6 c u s hc =>
    intro t ht h
    simp only [moreNames, hc, if_false] at h ⊢
    exact ⟨[], rfl, .one ht⟩

theorem lambdaHead_spec {s : List Tok} {ps : List Name} {r : List Tok} (h : lambdaHead s = some (ps, r)) :
    ∃ w c a, s = w ++ c :: a :: r ∧ Params ps w ∧ c.kind = "RPAREN" ∧ a.kind = "DOUBLE_ARROW" := by
  unfold lambdaHead at h
  split at h
  · rename_i hk
    obtain ⟨t, r0, rfl, ht, had, hv⟩ := cur_cons hk (by decide)
    rw [had, hv] at h
    dsimp only at h
    split at h
    · rename_i hr
      obtain ⟨w, hw, hp⟩ := moreNames_spec r0 t ht hr
      split at h
      · rename_i ha
        cases h
        obtain ⟨c, r1, h1, hc, hac, -⟩ := cur_cons hr (by decide)
        rw [hac] at ha ⊢
        obtain ⟨a, r2, h2, ha', haa, -⟩ := cur_cons ha (by decide)
        refine ⟨t :: w, c, a, ?_, hp, hc, ha'⟩
        rw [haa, List.cons_append, ← h2, ← h1, ← hw]
      · cases h
    · cases h
  · cases h

theorem Base.lamOf {t : Tail} {rest : List Tok} (h : Fol .expr t rest) :
    Base { lam := true, noElse := t.noElse } rest :=
  ⟨h.1.noElse, fun _ => ⟨h.2.1, h.2.2.1, h.2.2.2⟩, by simp⟩

theorem sound_group (ih : IH n) {o : Tok} (ho : o.kind = "LPAREN") {toks v rest}
    (h : stepGroup (parse n) toks = .ok (v, rest)) : Post .prim v (o :: toks) rest := by
  unfold stepGroup at h
  split at h
  · rename_i hc
    obtain ⟨c, r, rfl, hck, hac, -⟩ := cur_cons hc (by decide)
    rw [hac] at h
    split at h
    · rename_i ha
      obtain ⟨a, r', rfl, hak, haa, -⟩ := cur_cons ha (by decide)
      rw [haa] at h
      replace h := bind_ok.1 h
      obtain ⟨⟨b, s1⟩, h1, h⟩ := h
      cases pure_ok.1 h
      obtain ⟨w, t, rfl, hd, hf⟩ := ih _ _ _ _ h1
      exact ⟨o :: c :: a :: w, _, rfl, .lam0 ho hck hak hd, Base.lamOf hf⟩
    · cases h
  · split at h
    · rename_i ps s1 hl
      obtain ⟨wp, c, a, rfl, hp, hc, ha⟩ := lambdaHead_spec hl
      replace h := bind_ok.1 h
      obtain ⟨⟨b, s2⟩, h1, h⟩ := h
      cases pure_ok.1 h
      obtain ⟨w, t, rfl, hd, hf⟩ := ih _ _ _ _ h1
      exact ⟨o :: wp ++ c :: a :: w, _, by simp, .lam ho hp hc ha hd, Base.lamOf hf⟩
    · replace h := bind_ok.1 h
      obtain ⟨⟨b, s1⟩, h1, h⟩ := h
      replace h := bind_ok.1 h
      obtain ⟨⟨x, s2⟩, h2, h⟩ := h
      obtain ⟨c, rfl, hck, -⟩ := consume_ok h2 (by decide)
      cases pure_ok.1 h
      obtain ⟨w, t, rfl, hd, hf⟩ := ih _ _ _ _ h1
      exact ⟨o :: w ++ [c], _, by simp, .group ho hd hck, Base.closed _⟩

theorem sound_list (ih : IH n) {o : Tok} (ho : o.kind = "LBRACKET") {toks v rest}
    (h : stepList (parse n) toks = .ok (v, rest)) : Post .prim v (o :: toks) rest := by
  unfold stepList at h
  split at h
  · rename_i hc
    obtain ⟨c, r, rfl, hck, hac, -⟩ := cur_cons hc (by decide)
    rw [hac] at h
    cases pure_ok.1 h
    exact ⟨[o, c], _, rfl, .list0 ho hck, Base.closed _⟩
  · replace h := bind_ok.1 h
    obtain ⟨⟨e, s1⟩, h1, h⟩ := h
    obtain ⟨w, t, rfl, hd, -⟩ := ih _ _ _ _ h1
    dsimp only at h
    split at h
    · rename_i hfor
      replace h := bind_ok.1 h
      obtain ⟨⟨cs, s2⟩, h2, h⟩ := h
      replace h := bind_ok.1 h
      obtain ⟨⟨x, s3⟩, h3, h⟩ := h
      obtain ⟨c, rfl, hck, -⟩ := consume_ok h3 (by decide)
      cases pure_ok.1 h
      obtain ⟨w', u, rfl, hd', hnf⟩ := ih _ _ _ _ h2
      refine ⟨o :: w ++ w' ++ [c], _, by simp, .comp ho hd hd' ?_ hck, Base.closed _⟩
      rintro rfl
      cases hd'
      exact hnf hfor
    split at h
    · rename_i hr
      obtain ⟨r, r', rfl, hrk, har, -⟩ := cur_cons hr (by decide)
      rw [har] at h
      replace h := bind_ok.1 h
      obtain ⟨⟨b, s2⟩, h2, h⟩ := h
      replace h := bind_ok.1 h
      obtain ⟨⟨x, s3⟩, h3, h⟩ := h
      obtain ⟨c, rfl, hck, -⟩ := consume_ok h3 (by decide)
      cases pure_ok.1 h
      obtain ⟨w', u, rfl, hd', -⟩ := ih _ _ _ _ h2
      exact ⟨o :: w ++ r :: w' ++ [c], _, by simp, .range ho hd hrk hd' hck, Base.closed _⟩
    · replace h := bind_ok.1 h
      obtain ⟨⟨es, s2⟩, h2, h⟩ := h
      cases pure_ok.1 h
      obtain ⟨w', u, rfl, hd', -⟩ := ih _ _ _ _ h2
      exact ⟨o :: w ++ w', _, by simp, .list ho hd hd', Base.closed _⟩

theorem sound_match (ih : IH n) {o : Tok} (ho : o.kind = "MATCH") {toks v rest}
    (h : stepMatch (parse n) toks = .ok (v, rest)) : Post .prim v (o :: toks) rest := by
  unfold stepMatch at h
  replace h := bind_ok.1 h
  obtain ⟨⟨e, s1⟩, h1, h⟩ := h
  replace h := bind_ok.1 h
  obtain ⟨⟨x2, s2⟩, h2, h⟩ := h
  replace h := bind_ok.1 h
  obtain ⟨⟨x3, s3⟩, h3, h⟩ := h
  replace h := bind_ok.1 h
  obtain ⟨⟨x4, s4⟩, h4, h⟩ := h
  replace h := bind_ok.1 h
  obtain ⟨⟨as, s5⟩, h5, h⟩ := h
  replace h := bind_ok.1 h
  obtain ⟨⟨x6, s6⟩, h6, h⟩ := h
  cases pure_ok.1 h
  obtain ⟨c, rfl, hc, -⟩ := consume_ok h2 (by decide)
  obtain ⟨k, rfl, hk, -⟩ := consume_ok h3 (by decide)
  obtain ⟨i, rfl, hi, -⟩ := consume_ok h4 (by decide)
  obtain ⟨d, rfl, hdk, -⟩ := consume_ok h6 (by decide)
  obtain ⟨w, t, rfl, hd, -⟩ := ih _ _ _ _ h1
  obtain ⟨w', u, hs, hd', -⟩ := ih _ _ _ _ h5
  try dsimp only at hs
  subst hs
  exact ⟨o :: w ++ c :: k :: i :: w' ++ [d], _, by simp, .matchE ho hd hc hk hi hd' hdk, Base.closed _⟩

theorem isLit_ne_eof {s : List Tok} (h : isLit (cur s) = true) : cur s ≠ "EOF" := by
  intro e; rw [e] at h; simp [isLit] at h

theorem isName_ne_eof {s : List Tok} (h : isName (cur s) = true) : cur s ≠ "EOF" := by
  intro e; rw [e] at h; simp [isName, typeKinds] at h

theorem sound_prim (ih : IH n) {toks v rest} (h : stepPrim (parse n) toks = .ok (v, rest)) :
    Post .prim v toks rest := by
  unfold stepPrim at h
  split at h
  · rename_i hk
    obtain ⟨a, r, rfl, ha, had, hv⟩ := cur_cons (s := toks) rfl (isLit_ne_eof hk)
    rw [had, hv] at h
    cases pure_ok.1 h
    exact ⟨[a], _, rfl, .lit hk, Base.closed _⟩
  split at h
  · rename_i hk
    obtain ⟨a, r, rfl, ha, had, hv⟩ := cur_cons (s := toks) rfl (isName_ne_eof hk)
    rw [had, hv] at h
    cases pure_ok.1 h
    exact ⟨[a], _, rfl, .ident hk, Base.closed _⟩
  split at h
  · rename_i hk
    obtain ⟨a, r, rfl, ha, had, hv⟩ := cur_cons hk (by decide)
    rw [had] at h
    exact sound_group ih ha h
  split at h
  · rename_i hk
    obtain ⟨a, r, rfl, ha, had, hv⟩ := cur_cons hk (by decide)
    rw [had] at h
    exact sound_list ih ha h
  split at h
  · rename_i hk
    obtain ⟨a, r, rfl, ha, had, hv⟩ := cur_cons hk (by decide)
    rw [had] at h
    replace h := bind_ok.1 h
    obtain ⟨⟨es, s1⟩, h1, h⟩ := h
    cases pure_ok.1 h
    obtain ⟨w, u, rfl, hd, -⟩ := ih _ _ _ _ h1
    exact ⟨a :: w, _, rfl, .dict ha hd, Base.closed _⟩
  split at h
  · rename_i hk
    obtain ⟨a, r, rfl, ha, had, hv⟩ := cur_cons hk (by decide)
    rw [had] at h
    replace h := bind_ok.1 h
    obtain ⟨⟨⟨c, b, el, els⟩, s1⟩, h1, h⟩ := h
    cases pure_ok.1 h
    obtain ⟨w, u, rfl, hd, hf⟩ := ih _ _ _ _ h1
    exact ⟨a :: w, _, rfl, .ifE ha hd, hf⟩
  split at h
  · rename_i hk
    obtain ⟨a, r, rfl, ha, had, hv⟩ := cur_cons hk (by decide)
    rw [had] at h
    exact sound_match ih ha h
  · cases h

theorem sound_item (ih : IH n) {k toks v rest} (h : stepItem (parse n) k toks = .ok (v, rest)) :
    Post (.item k) v toks rest := by
  unfold stepItem at h
  cases k with
  | args =>
    dsimp only at h
    split at h
    · rename_i hk
      obtain ⟨a, r, rfl, ha, had, hv⟩ := cur_cons hk.1 (by decide)
      have hk2 : cur r = "ASSIGN" := by
        have := hk.2
        cases r with
        | nil => simp [peek1] at this
        | cons b r => exact this
      obtain ⟨b, r', rfl, hb, hbd, -⟩ := cur_cons hk2 (by decide)
      rw [had, hbd, hv] at h
      replace h := bind_ok.1 h
      obtain ⟨⟨e, s1⟩, h1, h⟩ := h
      cases pure_ok.1 h
      obtain ⟨w, u, rfl, hd, -⟩ := ih _ _ _ _ h1
      exact ⟨a :: b :: w, _, rfl, .itemNamed ha hb hd, trivial⟩
    · replace h := bind_ok.1 h
      obtain ⟨⟨e, s1⟩, h1, h⟩ := h
      cases pure_ok.1 h
      obtain ⟨w, u, rfl, hd, -⟩ := ih _ _ _ _ h1
      exact ⟨w, _, rfl, .itemExpr (by simp) hd, trivial⟩
  | elems =>
    replace h := bind_ok.1 h
    obtain ⟨⟨e, s1⟩, h1, h⟩ := h
    cases pure_ok.1 h
    obtain ⟨w, u, rfl, hd, -⟩ := ih _ _ _ _ h1
    exact ⟨w, _, rfl, .itemExpr (by simp) hd, trivial⟩
  | entries =>
    dsimp only at h
    split at h
    · rename_i hk
      obtain ⟨a, r, rfl, ha, had, hv⟩ := cur_cons (s := toks) rfl (by rcases hk with hk | hk <;> rw [hk] <;> decide)
      rw [had, hv] at h
      replace h := bind_ok.1 h
      obtain ⟨⟨x, s1⟩, h1, h⟩ := h
      replace h := bind_ok.1 h
      obtain ⟨⟨e, s2⟩, h2, h⟩ := h
      cases pure_ok.1 h
      obtain ⟨c, rfl, hc, -⟩ := consume_ok h1 (by decide)
      obtain ⟨w, u, hs, hd, -⟩ := ih _ _ _ _ h2
      try dsimp only at hs
      subst hs
      exact ⟨a :: c :: w, _, rfl, .itemEntry hk hc hd, trivial⟩
    · cases h

theorem close_ne_eof (k : SeqK) : k.close ≠ "EOF" := by cases k <;> decide

theorem sound_seq (ih : IH n) {k toks v rest} (h : stepSeq (parse n) k toks = .ok (v, rest)) :
    Post (.seq k) v toks rest := by
  unfold stepSeq at h
  split at h
  · rename_i hk
    obtain ⟨a, r, rfl, ha, had, hv⟩ := cur_cons hk (close_ne_eof k)
    rw [had] at h
    cases pure_ok.1 h
    exact ⟨[a], _, rfl, .seq0 ha, trivial⟩
  · replace h := bind_ok.1 h
    obtain ⟨⟨a, s1⟩, h1, h⟩ := h
    replace h := bind_ok.1 h
    obtain ⟨⟨as, s2⟩, h2, h⟩ := h
    cases pure_ok.1 h
    obtain ⟨w, u, rfl, hd, -⟩ := ih _ _ _ _ h1
    obtain ⟨w', u', rfl, hd', -⟩ := ih _ _ _ _ h2
    exact ⟨w ++ w', _, by simp, .seq hd hd', trivial⟩

theorem sound_seqTail (ih : IH n) {k toks v rest} (h : stepSeqTail (parse n) k toks = .ok (v, rest)) :
    Post (.seqTail k) v toks rest := by
  unfold stepSeqTail at h
  split at h
  · rename_i hk
    obtain ⟨m, r, rfl, hm, had, hv⟩ := cur_cons hk (by decide)
    rw [had] at h
    split at h
    · rename_i hk
      obtain ⟨a, r', rfl, ha, had', hv⟩ := cur_cons hk (close_ne_eof k)
      rw [had'] at h
      cases pure_ok.1 h
      exact ⟨[m, a], _, rfl, .seqComma hm ha, trivial⟩
    · replace h := bind_ok.1 h
      obtain ⟨⟨a, s1⟩, h1, h⟩ := h
      replace h := bind_ok.1 h
      obtain ⟨⟨as, s2⟩, h2, h⟩ := h
      cases pure_ok.1 h
      obtain ⟨w, u, rfl, hd, -⟩ := ih _ _ _ _ h1
      obtain ⟨w', u', rfl, hd', -⟩ := ih _ _ _ _ h2
      exact ⟨m :: w ++ w', _, by simp, .seqMore hm hd hd', trivial⟩
  · replace h := bind_ok.1 h
    obtain ⟨⟨x, s1⟩, h1, h⟩ := h
    cases pure_ok.1 h
    obtain ⟨c, rfl, hc, -⟩ := consume_ok h1 (close_ne_eof k)
    exact ⟨[c], _, rfl, .seqEnd hc, trivial⟩

theorem sound_clauses (ih : IH n) {toks v rest} (h : stepClauses (parse n) toks = .ok (v, rest)) :
    Post .clauses v toks rest := by
  unfold stepClauses at h
  split at h
  · rename_i hk
    obtain ⟨o, r, rfl, ho, had, hv⟩ := cur_cons hk (by decide)
    rw [had] at h
    replace h := bind_ok.1 h
    obtain ⟨⟨x1, s1⟩, h1, h⟩ := h
    replace h := bind_ok.1 h
    obtain ⟨⟨x2, s2⟩, h2, h⟩ := h
    replace h := bind_ok.1 h
    obtain ⟨⟨it, s3⟩, h3, h⟩ := h
    replace h := bind_ok.1 h
    obtain ⟨⟨cs, s4⟩, h4, h⟩ := h
    replace h := bind_ok.1 h
    obtain ⟨⟨rs, s5⟩, h5, h⟩ := h
    cases pure_ok.1 h
    obtain ⟨a, rfl, ha, hx1⟩ := consume_ok h1 (by decide)
    obtain ⟨i, hs, hi, -⟩ := consume_ok h2 (by decide)
    dsimp only at hs hx1
    subst hs hx1
    obtain ⟨w, u, rfl, hd, -⟩ := ih _ _ _ _ h3
    obtain ⟨w', u', rfl, hd', -⟩ := ih _ _ _ _ h4
    obtain ⟨w'', u'', rfl, hd'', hf⟩ := ih _ _ _ _ h5
    exact ⟨o :: a :: i :: w ++ w' ++ w'', _, by simp, .clause ho ha hi hd hd' hd'', hf⟩
  · cases pure_ok.1 h
    exact ⟨[], _, rfl, .clauses0, by assumption⟩

theorem sound_conds (ih : IH n) {toks v rest} (h : stepConds (parse n) toks = .ok (v, rest)) :
    Post .conds v toks rest := by
  unfold stepConds at h
  split at h
  · rename_i hk
    obtain ⟨o, r, rfl, ho, had, hv⟩ := cur_cons hk (by decide)
    rw [had] at h
    replace h := bind_ok.1 h
    obtain ⟨⟨x1, s1⟩, h1, h⟩ := h
    replace h := bind_ok.1 h
    obtain ⟨⟨x2, s2⟩, h2, h⟩ := h
    cases pure_ok.1 h
    obtain ⟨w, u, rfl, hd, -⟩ := ih _ _ _ _ h1
    obtain ⟨w', u', rfl, hd', hf⟩ := ih _ _ _ _ h2
    exact ⟨o :: w ++ w', _, by simp, .condsMore ho hd hd', hf⟩
  · cases pure_ok.1 h
    exact ⟨[], _, rfl, .conds0, by assumption⟩

theorem sound_elifs (ih : IH n) {toks v rest} (h : stepElifs (parse n) toks = .ok (v, rest)) :
    Post .elifs v toks rest := by
  unfold stepElifs at h
  split at h
  · rename_i hk
    obtain ⟨o, r, rfl, ho, had, hv⟩ := cur_cons hk (by decide)
    rw [had] at h
    replace h := bind_ok.1 h
    obtain ⟨⟨x1, s1⟩, h1, h⟩ := h
    replace h := bind_ok.1 h
    obtain ⟨⟨x2, s2⟩, h2, h⟩ := h
    replace h := bind_ok.1 h
    obtain ⟨⟨x3, s3⟩, h3, h⟩ := h
    replace h := bind_ok.1 h
    obtain ⟨⟨x4, s4⟩, h4, h⟩ := h
    cases pure_ok.1 h
    obtain ⟨k, rfl, hkk, -⟩ := consume_ok h2 (by decide)
    obtain ⟨w, u, rfl, hd, -⟩ := ih _ _ _ _ h1
    obtain ⟨w', u', hs, hd', hf⟩ := ih _ _ _ _ h3
    try dsimp only at hs
    subst hs
    obtain ⟨w'', u'', rfl, hd'', hf⟩ := ih _ _ _ _ h4
    exact ⟨o :: w ++ k :: w' ++ w'', _, by simp, .elif ho hd hkk hd' hd'', hf⟩
  · cases pure_ok.1 h
    exact ⟨[], _, rfl, .elifs0, by assumption⟩

theorem sound_ifParts (ih : IH n) {toks v rest} (h : stepIfParts (parse n) toks = .ok (v, rest)) :
    Post .ifParts v toks rest := by
  unfold stepIfParts at h
  replace h := bind_ok.1 h
  obtain ⟨⟨x1, s1⟩, h1, h⟩ := h
  replace h := bind_ok.1 h
  obtain ⟨⟨x2, s2⟩, h2, h⟩ := h
  replace h := bind_ok.1 h
  obtain ⟨⟨x3, s3⟩, h3, h⟩ := h
  replace h := bind_ok.1 h
  obtain ⟨⟨x4, s4⟩, h4, h⟩ := h
  obtain ⟨k, rfl, hkk, -⟩ := consume_ok h2 (by decide)
  obtain ⟨w, u, rfl, hd, -⟩ := ih _ _ _ _ h1
  obtain ⟨w', u', hs, hd', hf⟩ := ih _ _ _ _ h3
  try dsimp only at hs
  subst hs
  obtain ⟨w'', u'', rfl, hd'', hf⟩ := ih _ _ _ _ h4
  dsimp only at h
  split at h
  · rename_i hk
    obtain ⟨o, r, rfl, ho, had, hv⟩ := cur_cons hk (by decide)
    rw [had] at h
    replace h := bind_ok.1 h
    obtain ⟨⟨x5, s5⟩, h5, h⟩ := h
    replace h := bind_ok.1 h
    obtain ⟨⟨x6, s6⟩, h6, h⟩ := h
    cases pure_ok.1 h
    obtain ⟨k', rfl, hk', -⟩ := consume_ok h5 (by decide)
    obtain ⟨w3, u3, hs, hd3, hf⟩ := ih _ _ _ _ h6
    try dsimp only at hs
    subst hs
    exact ⟨w ++ k :: w' ++ w'' ++ o :: k' :: w3, _, by simp, .ifElse hd hkk hd' hd'' ho hk' hd3, Base.closed _⟩
  · rename_i hk
    cases pure_ok.1 h
    refine ⟨w ++ k :: w' ++ w'', _, by simp, .ifThen hd hkk hd' hd'', ?_, by simp, by simp⟩
    intro _
    exact ⟨hk, hf⟩

end Verif.Parser
