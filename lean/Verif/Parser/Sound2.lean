import Verif.Parser.Sound

/-! Soundness, continued: match arms, blocks, statements. -/

namespace Verif.Parser

open Verif.Lexer

variable {n : Nat}

theorem armsNls {as : Val .arms} {u : Tail} {w : List Tok} (h : D .arms as u w) (ns : List Tok)
    (hn : ∀ a ∈ ns, a.kind = "NEWLINE") : ∃ u', D .arms as u' (ns ++ w) := by
  induction ns with
  | nil => exact ⟨u, h⟩
  | cons a ns ih =>
    obtain ⟨u', h'⟩ := ih fun b hb => hn b (by simp [hb])
    exact ⟨_, .armsNl (hn a (by simp)) h'⟩

theorem blockNls {b : Val .block} {u : Tail} {w : List Tok} (h : D .block b u w) (ns : List Tok)
    (hn : ∀ a ∈ ns, a.kind = "NEWLINE") : ∃ u', D .block b u' (ns ++ w) := by
  induction ns with
  | nil => exact ⟨u, h⟩
  | cons a ns ih =>
    obtain ⟨u', h'⟩ := ih fun b hb => hn b (by simp [hb])
    exact ⟨_, .blockNl (hn a (by simp)) h'⟩

theorem stmtsNls {c : Bool} {ss : Val (.stmts c)} {u : Tail} {w : List Tok} (h : D (.stmts c) ss u w) (ns : List Tok)
    (hn : ∀ a ∈ ns, a.kind = "NEWLINE") : D (.stmts c) ss u (ns ++ w) := by
  induction ns with
  | nil => exact h
  | cons a ns ih => exact .stmtsNl (hn a (by simp)) (ih fun b hb => hn b (by simp [hb]))

theorem pattern_ok {s : List Tok} {p : Pat} {r : List Tok} (h : pattern s = .ok (p, r)) :
    ∃ q, s = q :: r ∧ IsPat p q := by
  unfold pattern at h
  split at h
  · rename_i hk
    obtain ⟨a, r', rfl, ha, had, hv⟩ := cur_cons hk (by decide)
    rw [had] at h
    cases h
    exact ⟨a, rfl, .wild ha⟩
  split at h
  · rename_i hk
    obtain ⟨a, r', rfl, ha, had, hv⟩ := cur_cons (s := s) rfl (isLit_ne_eof hk)
    rw [had, hv] at h
    cases h
    exact ⟨a, rfl, .lit hk⟩
  split at h
  · rename_i hk
    obtain ⟨a, r', rfl, ha, had, hv⟩ := cur_cons hk (by decide)
    rw [had, hv] at h
    cases h
    exact ⟨a, rfl, .ident ha⟩
  · cases h

theorem sound_arms (ih : IH n) {toks v rest} (h : stepArms (parse n) toks = .ok (v, rest)) :
    Post .arms v toks rest := by
  unfold stepArms at h
  obtain ⟨ns, hs, hns⟩ := skipNl_split toks
  split at h
  · cases pure_ok.1 h
    exact ⟨[], _, rfl, .arms0, trivial⟩
  split at h
  · cases pure_ok.1 h
    obtain ⟨u, hu⟩ := armsNls .arms0 ns hns
    exact ⟨ns, u, hs, by simpa using hu, trivial⟩
  · replace h := bind_ok.1 h
    obtain ⟨⟨p, s1⟩, h1, h⟩ := h
    replace h := bind_ok.1 h
    obtain ⟨⟨x2, s2⟩, h2, h⟩ := h
    replace h := bind_ok.1 h
    obtain ⟨⟨e, s3⟩, h3, h⟩ := h
    replace h := bind_ok.1 h
    obtain ⟨⟨as, s4⟩, h4, h⟩ := h
    cases pure_ok.1 h
    obtain ⟨q, hq, hp⟩ := pattern_ok h1
    obtain ⟨k, rfl, hk, -⟩ := consume_ok h2 (by decide)
    obtain ⟨w, u, hs3, hd, -⟩ := ih _ _ _ _ h3
    try dsimp only at hs3
    subst hs3
    obtain ⟨ms, hm, hms⟩ := skipNl_split s3
    obtain ⟨w', u', hs4, hd', -⟩ := ih _ _ _ _ h4
    obtain ⟨u'', hd''⟩ := armsNls hd' ms hms
    rw [hs4] at hm
    have key : ∃ w0 u0, skipNl toks = w0 ++ rest ∧ D .arms ((p, e) :: as) u0 w0 := by
      unfold skipCase at hq
      split at hq
      · rename_i hi
        obtain ⟨o, r, ho, hok, hao, -⟩ := cur_cons hi (by decide)
        rw [hao] at hq
        refine ⟨o :: q :: k :: w ++ (ms ++ w'), _, ?_, .armCase hok hp hk hd hd''⟩
        rw [ho, hq]
        simp [hm]
      · rename_i hi
        refine ⟨q :: k :: w ++ (ms ++ w'), _, ?_, .arm ?_ hp hk hd hd''⟩
        · rw [hq]; simp [hm]
        · rw [hq] at hi
          exact hi
    obtain ⟨w0, u0, h0, hd0⟩ := key
    obtain ⟨u1, hd1⟩ := armsNls hd0 ns hns
    exact ⟨ns ++ w0, u1, by rw [List.append_assoc, ← h0, ← hs], hd1, trivial⟩

theorem sound_block (ih : IH n) {toks v rest} (h : stepBlock (parse n) toks = .ok (v, rest)) :
    Post .block v toks rest := by
  unfold stepBlock at h
  obtain ⟨ns, hs, hns⟩ := skipNl_split toks
  suffices key : ∃ w u, skipNl toks = w ++ rest ∧ D .block v u w by
    obtain ⟨w, u, h0, hd0⟩ := key
    obtain ⟨u1, hd1⟩ := blockNls hd0 ns hns
    exact ⟨ns ++ w, u1, by rw [List.append_assoc, ← h0, ← hs], hd1, trivial⟩
  generalize skipNl toks = s at h
  clear hs
  split at h
  · rename_i hk
    obtain ⟨i, r, rfl, hi, hai, -⟩ := cur_cons hk (by decide)
    rw [hai] at h
    replace h := bind_ok.1 h
    obtain ⟨⟨ss, s1⟩, h1, h⟩ := h
    replace h := bind_ok.1 h
    obtain ⟨⟨x, s2⟩, h2, h⟩ := h
    cases pure_ok.1 h
    obtain ⟨d, rfl, hd, -⟩ := consume_ok h2 (by decide)
    obtain ⟨w, t, rfl, hw, hf, -⟩ := ih _ _ _ _ h1
    refine ⟨i :: w ++ [d], _, by simp, .braced hi hw ?_ hd⟩
    cases hb : t.stop with
    | any => exact .inl rfl
    | blockEnd => exact .inr rfl
    | dedentEnd => rw [hb] at hf; simp [stopOK, cur, hd] at hf
    | textEnd => rw [hb] at hf; simp [stopOK, cur, hd] at hf
  · replace h := bind_ok.1 h
    obtain ⟨⟨x, s1⟩, h0, h⟩ := h
    replace h := bind_ok.1 h
    obtain ⟨⟨ss, s2⟩, h1, h⟩ := h
    replace h := bind_ok.1 h
    obtain ⟨⟨y, s3⟩, h2, h⟩ := h
    cases pure_ok.1 h
    obtain ⟨i, rfl, hi, -⟩ := consume_ok h0 (by decide)
    obtain ⟨d, rfl, hd, -⟩ := consume_ok h2 (by decide)
    obtain ⟨w, t, hs, hw, hf, -⟩ := ih _ _ _ _ h1
    try dsimp only at hs
    subst hs
    refine ⟨i :: w ++ [d], _, by simp, .indented hi hw ?_ hd⟩
    intro hb
    rw [hb] at hf; simp [stopOK, cur, hd] at hf

theorem stmtFirst_not {k : String} (h : stmtFirst k = true) :
    k ≠ "EOF" ∧ k ≠ "DEDENT" ∧ k ≠ "RBRACE" ∧ k ≠ "NEWLINE" ∧ k ≠ "ELSE" ∧ k ≠ "ELIF" := by
  refine ⟨?_, ?_, ?_, ?_, ?_, ?_⟩ <;> (rintro rfl; revert h; decide)

theorem stopOK_end {b : Stop} {s : List Tok} (hb : b ≠ .any) (h : stopOK b s) :
    cur s = "EOF" ∨ cur s = "DEDENT" ∨ cur s = "RBRACE" := by
  cases b with
  | any => exact absurd rfl hb
  | blockEnd => exact h
  | dedentEnd => exact h.imp_right .inl
  | textEnd => exact .inl h

theorem ite_ok {α : Type} {c : Prop} [Decidable c] {x y : α} {r : α} (h : (if c then x else y) = r) :
    (c ∧ x = r) ∨ (¬ c ∧ y = r) := by
  split at h
  · exact .inl ⟨‹_›, h⟩
  · exact .inr ⟨‹_›, h⟩

theorem sound_stmts (ih : IH n) {c toks v rest} (h : stepStmts (parse n) c toks = .ok (v, rest)) :
    Post (.stmts c) v toks rest := by
  unfold stepStmts at h
  obtain ⟨ns, hs, hns⟩ := skipNl_split toks
  split at h
  · rename_i hk
    cases pure_ok.1 h
    exact ⟨[], _, rfl, .stmts0, trivial, hk⟩
  split at h
  · rename_i hk
    cases pure_ok.1 h
    exact ⟨ns, {}, hs, by simpa using stmtsNls .stmts0 ns hns, trivial, .inl hk⟩
  · replace h := bind_ok.1 h
    obtain ⟨⟨x, s1⟩, h1, h⟩ := h
    replace h := bind_ok.1 h
    obtain ⟨⟨xs, s2⟩, h2, h⟩ := h
    cases pure_ok.1 h
    obtain ⟨w, t, h0, hd, hf⟩ := ih _ _ _ _ h1
    obtain ⟨w', u, rfl, hd', hf', hc⟩ := ih _ _ _ _ h2
    by_cases hb : t.stop = .any
    · refine ⟨ns ++ (w ++ w'), _, ?_, stmtsNls (.stmtsMore hd hb hd') ns hns, hf', hc⟩
      rw [hs, h0]; simp
    · have hcur : cur (w' ++ rest) = "EOF" ∨ cur (w' ++ rest) = "DEDENT" ∨ cur (w' ++ rest) = "RBRACE" := by
        exact stopOK_end hb hf.1
      rcases first_lemma hd' with ⟨rfl, he⟩ | ⟨a, r, rfl, ha⟩
      · cases (he : xs = [])
        refine ⟨ns ++ w, _, ?_, stmtsNls (.stmtsLast hd) ns hns, hf.1, hc⟩
        rw [hs, h0]; simp
      · exfalso
        change a.kind = _ ∨ a.kind = _ ∨ a.kind = _ at hcur
        rcases ha with ha | ha
        · rw [ha] at hcur; revert hcur; decide
        · have := stmtFirst_not ha
          tauto


/-- text that closes `d` braces, then matches -/
inductive Cl : Nat → List Tok → Prop
  | zero {w} : Balanced w → Cl 0 w
  | succ {d v w} {b : Tok} : Balanced v → b.kind = "RBRACE" → Cl d w → Cl (d + 1) (v ++ b :: w)

/-- text that closes at most `d` braces -/
inductive Op : Nat → List Tok → Prop
  | zero {d w} : Unclosed w → Op d w
  | succ {d v w} {b : Tok} : Balanced v → b.kind = "RBRACE" → Op d w → Op (d + 1) (v ++ b :: w)

theorem Cl.pre {x : List Tok} (hx : ∀ w, Balanced w → Balanced (x ++ w)) {d : Nat} {w : List Tok} (h : Cl d w) :
    Cl d (x ++ w) := by
  cases h with
  | zero h => exact .zero (hx _ h)
  | succ hv hb h => rw [← List.append_assoc]; exact .succ (hx _ hv) hb h

theorem Op.pre {x : List Tok} (hx : ∀ w, Balanced w → Balanced (x ++ w)) {d : Nat} {w : List Tok} (h : Op d w) :
    Op d (x ++ w) := by
  cases h with
  | zero h =>
    refine .zero ?_
    cases h with
    | balanced h => exact .balanced (hx _ h)
    | more hv hb h => rw [← List.append_assoc]; exact .more (hx _ hv) hb h
  | succ hv hb h => rw [← List.append_assoc]; exact .succ (hx _ hv) hb h

theorem Op.mono {d : Nat} {w : List Tok} (h : Op d w) : Op (d + 1) w := by
  induction h with
  | zero h => exact .zero h
  | succ hv hb _ ih => exact .succ hv hb ih

theorem pyBody_spec (d : Nat) (s : List Tok) : ∀ c r, pyBody (d + 1) s = (c, r) →
    (∃ w b, s = w ++ b :: r ∧ b.kind = "RBRACE" ∧ Cl d w ∧ c = w.map (·.lexeme)) ∨
    (cur r = "EOF" ∧ ∃ w, s = w ++ r ∧ Op d w ∧ c = w.map (·.lexeme)) := by
  induction s generalizing d with
  | nil =>
    intro c r h
    cases h
    exact .inr ⟨rfl, [], rfl, .zero (.balanced .nil), rfl⟩
  | cons t s ih =>
    intro c r h
    unfold pyBody at h
    split at h
    · rename_i hk
      cases h
      exact .inr ⟨hk, [], rfl, .zero (.balanced .nil), rfl⟩
    rename_i heof
    split at h
    · rename_i hk
      have key := ih (d + 1) _ _ rfl
      cases h
      rcases key with ⟨w, b, hs, hb, hc, he⟩ | ⟨hr, w, hs, hc, he⟩
      · left
        cases hc with
        | succ hv hb' hc =>
          rename_i v w b'
          refine ⟨t :: v ++ b' :: w, b, by simpa using hs, hb, ?_, by simp [he]⟩
          have := hc.pre (x := t :: v ++ [b']) (fun w hw => by simpa using Balanced.braces hk hv hb' hw)
          simpa using this
      · right
        refine ⟨hr, t :: w, by rw [List.cons_append, ← hs], ?_, by simp [he]⟩
        cases hc with
        | zero h => exact .zero (.more .nil hk h)
        | succ hv hb' hc =>
          rename_i v w b'
          have := hc.pre (x := t :: v ++ [b']) (fun w hw => by simpa using Balanced.braces hk hv hb' hw)
          simpa using this
    rename_i hlb
    split at h
    · rename_i hk
      split at h
      · rename_i hd
        subst hd
        cases h
        exact .inl ⟨[], t, rfl, hk, .zero .nil, rfl⟩
      · rename_i hd
        obtain ⟨e, rfl⟩ := Nat.exists_eq_succ_of_ne_zero hd
        have key := ih e _ _ rfl
        cases h
        rcases key with ⟨w, b, hs, hb, hc, he⟩ | ⟨hr, w, hs, hc, he⟩
        · exact .inl ⟨t :: w, b, by simpa using hs, hb, .succ .nil hk hc, by simp [he]⟩
        · exact .inr ⟨hr, t :: w, by rw [List.cons_append, ← hs], .succ .nil hk hc, by simp [he]⟩
    · rename_i hk
      have key := ih d _ _ rfl
      cases h
      have hx : ∀ w, Balanced w → Balanced ([t] ++ w) := fun w hw => .other hlb hk heof hw
      rcases key with ⟨w, b, hs, hb, hc, he⟩ | ⟨hr, w, hs, hc, he⟩
      · exact .inl ⟨t :: w, b, by simpa using hs, hb, hc.pre hx, by simp [he]⟩
      · exact .inr ⟨hr, t :: w, by rw [List.cons_append, ← hs], hc.pre hx, by simp [he]⟩

theorem sound_python {toks v rest} (hp : cur toks = "PYTHON") (h : stmtPython toks = .ok (v, rest)) :
    Post .stmt v toks rest := by
  obtain ⟨p, r, rfl, hpk, had, -⟩ := cur_cons hp (by decide)
  unfold stmtPython at h
  rw [had] at h
  replace h := bind_ok.1 h
  obtain ⟨⟨x, s1⟩, h1, h⟩ := h
  obtain ⟨o, rfl, ho, -⟩ := consume_ok h1 (by decide)
  have key := pyBody_spec 0 s1 _ _ rfl
  cases pure_ok.1 h
  rcases key with ⟨w, b, hs, hb, hc, he⟩ | ⟨hr, w, hs, hc, he⟩
  · cases hc with
    | zero hc =>
      refine ⟨p :: o :: w ++ [b], {}, ?_, ?_, trivial, by simp⟩
      · simp only [List.cons_append, List.append_assoc, List.nil_append, List.cons.injEq, true_and]; exact hs
      · rw [show (pyBody 1 s1).1 = w.map (·.lexeme) from he]
        exact .py hpk ho hc hb
  · cases hc with
    | zero hc =>
      refine ⟨p :: o :: w, { stop := .textEnd }, ?_, ?_, hr, by simp⟩
      · simp only [List.cons_append, List.cons.injEq, true_and]; exact hs
      · rw [show (pyBody 1 s1).1 = w.map (·.lexeme) from he]
        exact .pyOpen hpk ho hc

theorem optType_ok (ih : IH n) {s : List Tok} {t : Option Ty} {r : List Tok} (h : optType (parse n) s = .ok (t, r)) :
    (t = none ∧ s = r) ∨ ∃ k ty u w, t = some ty ∧ k.kind = "COLON" ∧ D .ty ty u w ∧ s = k :: w ++ r := by
  unfold optType at h
  split at h
  · rename_i hk
    obtain ⟨k, r', rfl, hkk, had, -⟩ := cur_cons hk (by decide)
    rw [had] at h
    replace h := bind_ok.1 h
    obtain ⟨⟨x, s1⟩, h1, h⟩ := h
    cases pure_ok.1 h
    obtain ⟨w, u, rfl, hd, -⟩ := ih _ _ _ _ h1
    exact .inr ⟨k, x, u, w, rfl, hkk, hd, rfl⟩
  · cases pure_ok.1 h
    exact .inl ⟨rfl, rfl⟩

theorem optExpr_ok (ih : IH n) {q : String} (hq : q ≠ "EOF") {s : List Tok} {t : Option Expr} {r : List Tok}
    (h : optExpr (parse n) q s = .ok (t, r)) :
    (t = none ∧ s = r) ∨ ∃ k e u w, t = some e ∧ k.kind = q ∧ D .expr e u w ∧ s = k :: w ++ r := by
  unfold optExpr at h
  split at h
  · rename_i hk
    obtain ⟨k, r', rfl, hkk, had, -⟩ := cur_cons hk hq
    rw [had] at h
    replace h := bind_ok.1 h
    obtain ⟨⟨x, s1⟩, h1, h⟩ := h
    cases pure_ok.1 h
    obtain ⟨w, u, rfl, hd, -⟩ := ih _ _ _ _ h1
    exact .inr ⟨k, x, u, w, rfl, hkk, hd, rfl⟩
  · cases pure_ok.1 h
    exact .inl ⟨rfl, rfl⟩

theorem sound_let (ih : IH n) {toks v rest} (hk : cur toks = "LET") (h : stmtLet (parse n) toks = .ok (v, rest)) :
    Post .stmt v toks rest := by
  obtain ⟨l, r, rfl, hl, had, -⟩ := cur_cons hk (by decide)
  unfold stmtLet at h
  rw [had] at h
  replace h := bind_ok.1 h
  obtain ⟨⟨x, s1⟩, h1, h⟩ := h
  replace h := bind_ok.1 h
  obtain ⟨⟨t, s2⟩, h2, h⟩ := h
  replace h := bind_ok.1 h
  obtain ⟨⟨y, s3⟩, h3, h⟩ := h
  replace h := bind_ok.1 h
  obtain ⟨⟨e, s4⟩, h4, h⟩ := h
  replace h := bind_ok.1 h
  obtain ⟨s5, h5, h⟩ := h
  cases pure_ok.1 h
  obtain ⟨a, rfl, ha, hx⟩ := consume_ok h1 (by decide)
  try dsimp only at hx
  subst hx
  obtain ⟨b, we, rfl, ht, hstop⟩ := terminator_ok h5
  obtain ⟨q, rfl, hq, -⟩ := consume_ok h3 (by decide)
  obtain ⟨w, u, hs, hd, -⟩ := ih _ _ _ _ h4
  try dsimp only at hs
  subst hs
  rcases optType_ok ih h2 with ⟨rfl, hs⟩ | ⟨k, ty, u', wt, rfl, hkk, hty, hs⟩
  · try dsimp only at hs
    subst hs
    exact ⟨l :: a :: q :: w ++ we, _, by simp, .letS hl ha hq hd ht, hstop, by simp⟩
  · try dsimp only at hs
    subst hs
    exact ⟨l :: a :: k :: wt ++ q :: w ++ we, _, by simp, .letTy hl ha hkk hty hq hd ht, hstop, by simp⟩

theorem sound_require (ih : IH n) {toks v rest} {k : String} {mk} (hkm : (k = "REQUIRE" ∧ mk = Stmt.require) ∨
    (k = "ASSERT" ∧ mk = Stmt.assertS)) (hk : cur toks = k)
    (h : stmtRequire (parse n) mk toks = .ok (v, rest)) : Post .stmt v toks rest := by
  obtain ⟨l, r, rfl, hl, had, -⟩ := cur_cons hk (by rcases hkm with ⟨rfl, -⟩ | ⟨rfl, -⟩ <;> decide)
  unfold stmtRequire at h
  rw [had] at h
  replace h := bind_ok.1 h
  obtain ⟨⟨e, s1⟩, h1, h⟩ := h
  replace h := bind_ok.1 h
  obtain ⟨⟨m, s2⟩, h2, h⟩ := h
  replace h := bind_ok.1 h
  obtain ⟨s3, h3, h⟩ := h
  cases pure_ok.1 h
  obtain ⟨b, we, rfl, ht, hstop⟩ := terminator_ok h3
  obtain ⟨w, u, rfl, hd, -⟩ := ih _ _ _ _ h1
  rcases optExpr_ok ih (by decide) h2 with ⟨rfl, rfl⟩ | ⟨c, e', u', w', rfl, hc, hd', rfl⟩
  · refine ⟨l :: w ++ we, { stop := b }, by simp, ?_, hstop, by simp⟩
    rcases hkm with ⟨rfl, rfl⟩ | ⟨rfl, rfl⟩
    · exact .require hl hd ht
    · exact .assert hl hd ht
  · refine ⟨l :: w ++ c :: w' ++ we, { stop := b }, by simp, ?_, hstop, by simp⟩
    rcases hkm with ⟨rfl, rfl⟩ | ⟨rfl, rfl⟩
    · exact .requireMsg hl hd hc hd' ht
    · exact .assertMsg hl hd hc hd' ht

theorem peek1_cons {a : Tok} {r : List Tok} {k : String} (h : peek1 (a :: r) = k) (hk : k ≠ "EOF") :
    ∃ b r', r = b :: r' ∧ b.kind = k ∧ adv r = r' := by
  cases r with
  | nil => exact absurd h.symm hk
  | cons b r' => exact ⟨b, r', rfl, h, by simp only [peek1] at h; simp [adv, cur, h, hk]⟩

theorem sound_emitMeta (ih : IH n) {toks v rest} (h : stepEmitMeta (parse n) toks = .ok (v, rest)) :
    Post .emitMeta v toks rest := by
  unfold stepEmitMeta at h
  split at h
  · rename_i hk
    obtain ⟨k, r, rfl, hkk, had, -⟩ := cur_cons hk (by decide)
    rw [had] at h
    split at h
    · rename_i hi
      obtain ⟨i, r', rfl, hik, hai, hv⟩ := cur_cons hi.1 (by decide)
      obtain ⟨a, r'', rfl, hak, haa⟩ := peek1_cons hi.2 (by decide)
      rw [hai, haa, hv] at h
      replace h := bind_ok.1 h
      obtain ⟨⟨e, s1⟩, h1, h⟩ := h
      replace h := bind_ok.1 h
      obtain ⟨⟨es, s2⟩, h2, h⟩ := h
      cases pure_ok.1 h
      obtain ⟨w, u, rfl, hd, -⟩ := ih _ _ _ _ h1
      obtain ⟨w', u', rfl, hd', -⟩ := ih _ _ _ _ h2
      exact ⟨k :: i :: a :: w ++ w', _, by simp, .metaMore hkk hik hak hd hd', trivial⟩
    · cases pure_ok.1 h
      exact ⟨[k], _, rfl, .metaComma hkk, trivial⟩
  · cases pure_ok.1 h
    exact ⟨[], _, rfl, .meta0, trivial⟩

theorem updateDict_nil (d : List (Name × Expr)) : updateDict d (named []) = d := rfl

theorem sound_emit (ih : IH n) {toks v rest} (hk : cur toks = "EMIT") (h : stmtEmit (parse n) toks = .ok (v, rest)) :
    Post .stmt v toks rest := by
  obtain ⟨l, r, rfl, hl, had, -⟩ := cur_cons hk (by decide)
  unfold stmtEmit at h
  rw [had] at h
  replace h := bind_ok.1 h
  obtain ⟨⟨e, s1⟩, h1, h⟩ := h
  replace h := bind_ok.1 h
  obtain ⟨⟨md, s2⟩, h2, h⟩ := h
  replace h := bind_ok.1 h
  obtain ⟨⟨es, s3⟩, h3, h⟩ := h
  replace h := bind_ok.1 h
  obtain ⟨s4, h4, h⟩ := h
  cases pure_ok.1 h
  obtain ⟨b, we, rfl, ht, hstop⟩ := terminator_ok h4
  obtain ⟨w, u, rfl, hd, -⟩ := ih _ _ _ _ h1
  obtain ⟨w', u', rfl, hd', -⟩ := ih _ _ _ _ h2
  unfold optWith at h3
  split at h3
  · rename_i hw
    obtain ⟨h', r', rfl, hh, hah, -⟩ := cur_cons hw (by decide)
    rw [hah] at h3
    obtain ⟨w'', u'', hs, hd'', -⟩ := ih _ _ _ _ h3
    by_cases he : cur r' = "EOF"
    · exfalso
      rw [show adv r' = r' by simp [adv, he]] at hs
      rcases first_lemma hd'' with ⟨-, hx⟩ | ⟨a, x, rfl, ha⟩
      · exact hx
      · rw [hs] at he
        change a.kind = _ at he
        rcases ha with ha | ha
        · rw [ha] at he; revert he; decide
        · rw [he] at ha; revert ha; decide
    · obtain ⟨o, r'', rfl, -, hao, -⟩ := cur_cons (s := r') rfl he
      rw [hao] at hs
      subst hs
      exact ⟨l :: w ++ w' ++ h' :: o :: w'' ++ we, _, by simp, .emitWith hl hd hd' hh he hd'' ht, hstop, by simp⟩
  · cases pure_ok.1 h3
    refine ⟨l :: w ++ w' ++ we, { stop := b }, by simp, ?_, hstop, by simp⟩
    rw [updateDict_nil]
    exact .emit hl hd hd' ht

theorem sound_for (ih : IH n) {toks v rest} (hk : cur toks = "FOR") (h : stmtFor (parse n) toks = .ok (v, rest)) :
    Post .stmt v toks rest := by
  obtain ⟨l, r, rfl, hl, had, -⟩ := cur_cons hk (by decide)
  unfold stmtFor at h
  rw [had] at h
  replace h := bind_ok.1 h
  obtain ⟨⟨x, s1⟩, h1, h⟩ := h
  replace h := bind_ok.1 h
  obtain ⟨⟨y, s2⟩, h2, h⟩ := h
  replace h := bind_ok.1 h
  obtain ⟨⟨e, s3⟩, h3, h⟩ := h
  replace h := bind_ok.1 h
  obtain ⟨⟨z, s4⟩, h4, h⟩ := h
  replace h := bind_ok.1 h
  obtain ⟨⟨b, s5⟩, h5, h⟩ := h
  cases pure_ok.1 h
  obtain ⟨a, rfl, ha, hx⟩ := consume_ok h1 (by decide)
  try dsimp only at hx
  subst hx
  obtain ⟨i, hs, hi, -⟩ := consume_ok h2 (by decide)
  try dsimp only at hs
  subst hs
  obtain ⟨k, rfl, hkk, -⟩ := consume_ok h4 (by decide)
  obtain ⟨w, u, rfl, hd, -⟩ := ih _ _ _ _ h3
  obtain ⟨w', u', hs, hd', -⟩ := ih _ _ _ _ h5
  try dsimp only at hs
  subst hs
  exact ⟨l :: a :: i :: w ++ k :: w', _, by simp, .forS hl ha hi hd hkk hd', trivial, by simp⟩

theorem sound_return (ih : IH n) {toks v rest} (hk : cur toks = "RETURN")
    (h : stmtReturn (parse n) toks = .ok (v, rest)) : Post .stmt v toks rest := by
  obtain ⟨l, r, rfl, hl, had, -⟩ := cur_cons hk (by decide)
  unfold stmtReturn at h
  rw [had] at h
  replace h := bind_ok.1 h
  obtain ⟨⟨e, s1⟩, h1, h⟩ := h
  replace h := bind_ok.1 h
  obtain ⟨s2, h2, h⟩ := h
  replace h := bind_ok.1 h
  obtain ⟨s3, h3, h⟩ := h
  cases pure_ok.1 h
  unfold retValue at h1
  split at h1
  · rename_i hr
    cases pure_ok.1 h1
    have hno : cur r ≠ "AS" := by rintro e; rw [e] at hr; revert hr; decide
    unfold optAs at h2
    rw [if_neg hno] at h2
    cases pure_ok.1 h2
    unfold terminator at h3
    split at h3
    · rename_i hc
      cases h3
      exact ⟨[l], _, rfl, .ret0End hl, .inl hc, by simp⟩
    split at h3
    · rename_i hc
      obtain ⟨a, r', rfl, ha, haa, -⟩ := cur_cons hc (by decide)
      rw [haa] at h3
      cases h3
      exact ⟨[l, a], _, rfl, .ret0 hl ha, trivial, by simp⟩
    split at h3
    · rename_i hc
      cases h3
      exact ⟨[l], _, rfl, .ret0End hl, .inr hc, by simp⟩
    · exfalso
      tauto
  · replace h1 := bind_ok.1 h1
    obtain ⟨⟨e', s1'⟩, h0, h1⟩ := h1
    cases pure_ok.1 h1
    obtain ⟨w, u, rfl, hd, -⟩ := ih _ _ _ _ h0
    obtain ⟨b, we, rfl, ht, hstop⟩ := terminator_ok h3
    unfold optAs at h2
    split at h2
    · rename_i ha
      obtain ⟨a, r', rfl, hak, haa, -⟩ := cur_cons ha (by decide)
      rw [haa] at h2
      replace h2 := bind_ok.1 h2
      obtain ⟨⟨ty, s⟩, h4, h2⟩ := h2
      cases pure_ok.1 h2
      obtain ⟨wt, u', rfl, hty, -⟩ := ih _ _ _ _ h4
      exact ⟨l :: w ++ a :: wt ++ we, _, by simp, .retAs hl hd hak hty ht, hstop, by simp⟩
    · cases pure_ok.1 h2
      exact ⟨l :: w ++ we, _, by simp, .ret hl hd ht, hstop, by simp⟩

theorem sound_varDecl (ih : IH n) {toks v rest} (hk : cur toks = "IDENTIFIER" ∧ peek1 toks = "COLON")
    (h : stmtVarDecl (parse n) toks = .ok (v, rest)) : Post .stmt v toks rest := by
  obtain ⟨l, r, rfl, hl, had, hv⟩ := cur_cons hk.1 (by decide)
  obtain ⟨k, r', rfl, hkk, hak⟩ := peek1_cons hk.2 (by decide)
  unfold stmtVarDecl at h
  rw [had, hak, hv] at h
  replace h := bind_ok.1 h
  obtain ⟨⟨ty, s1⟩, h1, h⟩ := h
  replace h := bind_ok.1 h
  obtain ⟨⟨e, s2⟩, h2, h⟩ := h
  replace h := bind_ok.1 h
  obtain ⟨s3, h3, h⟩ := h
  cases pure_ok.1 h
  obtain ⟨b, we, rfl, ht, hstop⟩ := terminator_ok h3
  obtain ⟨wt, u, rfl, hty, -⟩ := ih _ _ _ _ h1
  rcases optExpr_ok ih (by decide) h2 with ⟨rfl, rfl⟩ | ⟨c, e', u', w', rfl, hc, hd', rfl⟩
  · exact ⟨l :: k :: wt ++ we, _, by simp, .varDecl hl hkk hty ht, hstop, by simp⟩
  · exact ⟨l :: k :: wt ++ c :: w' ++ we, _, by simp, .varInit hl hkk hty hc hd' ht, hstop, by simp⟩

theorem sound_simple (ih : IH n) {toks v rest} (hk : cur toks = "IDENTIFIER" ∧ peek1 toks = "ASSIGN")
    (h : stmtSimple (parse n) toks = .ok (v, rest)) : Post .stmt v toks rest := by
  obtain ⟨l, r, rfl, hl, had, hv⟩ := cur_cons hk.1 (by decide)
  obtain ⟨k, r', rfl, hkk, hak⟩ := peek1_cons hk.2 (by decide)
  unfold stmtSimple at h
  rw [had, hak, hv] at h
  replace h := bind_ok.1 h
  obtain ⟨⟨e, s1⟩, h1, h⟩ := h
  replace h := bind_ok.1 h
  obtain ⟨s2, h2, h⟩ := h
  cases pure_ok.1 h
  obtain ⟨b, we, rfl, ht, hstop⟩ := terminator_ok h2
  obtain ⟨w, u, rfl, hd, -⟩ := ih _ _ _ _ h1
  exact ⟨l :: k :: w ++ we, _, by simp, .simple hl hkk hd ht, hstop, by simp⟩

theorem sound_stmtExpr (ih : IH n) {toks v rest} (hif : cur toks ≠ "IF")
    (hk : ¬ (cur toks = "IDENTIFIER" ∧ peek1 toks = "ASSIGN"))
    (h : stmtExpr (parse n) toks = .ok (v, rest)) : Post .stmt v toks rest := by
  unfold stmtExpr at h
  replace h := bind_ok.1 h
  obtain ⟨⟨e, s1⟩, h1, h⟩ := h
  obtain ⟨w, u, rfl, hd, -⟩ := ih _ _ _ _ h1
  have hcur : ∃ a w', w = a :: w' := by
    rcases first_lemma hd with ⟨-, hx⟩ | ⟨a, x, hx, -⟩
    · exact hx.elim
    · exact ⟨a, x, hx⟩
  have hif' : cur w ≠ "IF" := by
    obtain ⟨a, w', rfl⟩ := hcur
    exact hif
  dsimp only at h
  split at h
  · rename_i ha
    obtain ⟨a, r', rfl, hak, haa, -⟩ := cur_cons ha (by decide)
    rw [haa] at h
    replace h := bind_ok.1 h
    obtain ⟨⟨e', s2⟩, h2, h⟩ := h
    replace h := bind_ok.1 h
    obtain ⟨s3, h3, h⟩ := h
    cases pure_ok.1 h
    obtain ⟨b, we, rfl, ht, hstop⟩ := terminator_ok h3
    obtain ⟨w', u', rfl, hd', -⟩ := ih _ _ _ _ h2
    refine ⟨w ++ a :: w' ++ we, _, by simp, .assign hd ?_ hif' hak hd' ht, hstop, by simp⟩
    rintro t rfl htk
    exact hk ⟨htk, hak⟩
  · replace h := bind_ok.1 h
    obtain ⟨s2, h2, h⟩ := h
    cases pure_ok.1 h
    obtain ⟨b, we, rfl, ht, hstop⟩ := terminator_ok h2
    exact ⟨w ++ we, _, by simp, .exprS hd hif' ht, hstop, by simp⟩

theorem sound_stmt (ih : IH n) {toks v rest} (h : stepStmt (parse n) toks = .ok (v, rest)) :
    Post .stmt v toks rest := by
  unfold stepStmt at h
  rcases ite_ok h with ⟨hk, h⟩ | ⟨hk, h⟩
  · exact sound_let ih hk h
  rcases ite_ok h with ⟨hk, h⟩ | ⟨hk, h⟩
  · exact sound_require ih (.inl ⟨rfl, rfl⟩) hk h
  rcases ite_ok h with ⟨hk, h⟩ | ⟨hk, h⟩
  · exact sound_require ih (.inr ⟨rfl, rfl⟩) hk h
  rcases ite_ok h with ⟨hk, h⟩ | ⟨hk, h⟩
  · exact sound_emit ih hk h
  rcases ite_ok h with ⟨hk, h⟩ | ⟨hk, h⟩
  · exact sound_for ih hk h
  rcases ite_ok h with ⟨hk, h⟩ | ⟨hk, h⟩
  · cases h
  rcases ite_ok h with ⟨hk, h⟩ | ⟨hk, h⟩
  · obtain ⟨a, r, rfl, ha, had, hv⟩ := cur_cons hk (by decide)
    rw [had] at h
    replace h := bind_ok.1 h
    obtain ⟨⟨⟨c, b, el, els⟩, s1⟩, h1, h⟩ := h
    cases pure_ok.1 h
    obtain ⟨w, u, rfl, hd, hf⟩ := ih _ _ _ _ h1
    refine ⟨a :: w, _, rfl, .ifS ha hd, ?_, Base.noElse hf⟩
    cases hd <;> trivial
  have hif := hk
  rcases ite_ok h with ⟨hk, h⟩ | ⟨hk, h⟩
  · obtain ⟨a, r, rfl, ha, had, hv⟩ := cur_cons hk (by decide)
    rw [had] at h
    replace h := bind_ok.1 h
    obtain ⟨s1, h1, h⟩ := h
    cases pure_ok.1 h
    obtain ⟨b, we, rfl, ht, hstop⟩ := terminator_ok h1
    exact ⟨a :: we, _, rfl, .pass ha ht, hstop, by simp⟩
  rcases ite_ok h with ⟨hk, h⟩ | ⟨hk, h⟩
  · exact sound_return ih hk h
  rcases ite_ok h with ⟨hk, h⟩ | ⟨hk, h⟩
  · exact sound_python hk h
  rcases ite_ok h with ⟨hk, h⟩ | ⟨hk, h⟩
  · exact sound_varDecl ih hk h
  rcases ite_ok h with ⟨hk, h⟩ | ⟨hk, h⟩
  · exact sound_simple ih hk h
  · exact sound_stmtExpr ih hif hk h

/-- soundness of every method -/
theorem sound : ∀ (n : Nat) s toks v rest, parse n s toks = .ok (v, rest) → Post s v toks rest := by
  intro n
  induction n with
  | zero => intro s toks v rest h; cases h
  | succ n ih =>
    intro s toks v rest h
    cases s with
    | ty => exact sound_ty ih h
    | tyTail c => exact sound_tyTail ih h
    | expr => exact sound_expr ih h
    | bin m => exact sound_bin ih h
    | binLoop m l => exact sound_binLoop ih h
    | unary => exact sound_unary ih h
    | post => exact sound_post ih h
    | postLoop e => exact sound_postLoop ih h
    | prim => exact sound_prim ih h
    | item k => exact sound_item ih h
    | seq k => exact sound_seq ih h
    | seqTail k => exact sound_seqTail ih h
    | clauses => exact sound_clauses ih h
    | conds => exact sound_conds ih h
    | elifs => exact sound_elifs ih h
    | ifParts => exact sound_ifParts ih h
    | arms => exact sound_arms ih h
    | block => exact sound_block ih h
    | stmts c => exact sound_stmts ih h
    | stmt => exact sound_stmt ih h
    | emitMeta => exact sound_emitMeta ih h

end Verif.Parser
