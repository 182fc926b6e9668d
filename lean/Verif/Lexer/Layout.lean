import Verif.Lexer.Props2

/-! C75: layout tokens occur only at line starts. -/

namespace Verif.Lexer

/-- no block comment opener occurs in the text -/
def NoBlock (l : List Char) : Prop := ¬ ['/', '*'] <:+: l

theorem NoBlock.suffix {l w r : List Char} (h : NoBlock l) (e : l = w ++ r) : NoBlock r := by
  subst e
  rintro ⟨a, b, hab⟩
  exact h ⟨w ++ a, b, by rw [← hab]; simp⟩

theorem NoBlock.not_block {r : List Char} (h : NoBlock ('/' :: '*' :: r)) : False := h ⟨[], r, rfl⟩

theorem skipGap_noBlock (n : Nat) : ∀ (l : List Char) (nl : Bool) (r : List Char) (nl' : Bool), NoBlock l →
    skipGap n l nl = some (r, nl') → nl' = nl := by
  induction n with
  | zero => intro l nl r nl' _ h; simp [skipGap] at h; exact h.2.symm
  | succ n ih =>
    intro l nl r nl' hb h
    rw [skipGap] at h
    obtain ⟨w, hw⟩ := (gap_dropBlank l).suffix
    have hb2 := hb.suffix hw
    split at h
    · rename_i r1 he
      rw [he] at hb2
      obtain ⟨w', hw'⟩ := (gap_skipComment r1).suffix
      exact ih _ _ _ _ (hb2.suffix hw') h
    · rename_i r1 he
      rw [he] at hb2
      exact absurd hb2.not_block id
    · simp at h; exact h.2.symm

/-- the outcome of line-start handling without a token, when there are no block comments -/
theorem handleLineStart_als {s s' : St} (hb : NoBlock s.rest) (h : handleLineStart s = .ok (none, s')) :
    s'.als = false ∨ s'.rest = [] ∨ ∃ c r, s'.rest = c :: r ∧ (c = '\n' ∨ c = '\x00') := by
  unfold handleLineStart at h
  split_ifs at h with hals
  · simp only at h
    obtain ⟨w, hw⟩ := (gap_dropBlank s.rest).suffix
    have hb2 := hb.suffix hw
    split at h
    · rename_i he
      simp only [Except.ok.injEq, Prod.mk.injEq, true_and] at h
      subst h; right; left; exact he
    · rename_i he
      simp only [Except.ok.injEq, Prod.mk.injEq, true_and] at h
      subst h; right; right; exact ⟨_, _, he, Or.inl rfl⟩
    · rename_i he
      simp only [Except.ok.injEq, Prod.mk.injEq, true_and] at h
      subst h; right; right; exact ⟨_, _, he, Or.inr rfl⟩
    · rename_i r he
      simp only [Except.ok.injEq, Prod.mk.injEq, true_and] at h
      subst h; right
      simp only
      rcases dropWhile_nl (List.dropWhile isBlank s.rest) with h | ⟨t, h⟩
      · exact Or.inl h
      · exact Or.inr ⟨_, t, h.symm, Or.inl rfl⟩
    · rename_i r he
      rw [he] at hb2
      exact absurd hb2.not_block id
    · left
      simp only [Except.ok.injEq] at h
      unfold indentation at h
      split_ifs at h with h1 h2 h3
      · simp at h; rw [← h]
      · simp at h
      · simp only at h
        split_ifs at h <;> simp at h <;> rw [← h]
      · simp at h; rw [← h]
  · simp at h
    left; rw [← h]; simpa using hals

theorem handleLineStart_some_als {s s' : St} {t : Tok} (h : handleLineStart s = .ok (some t, s')) :
    s'.als = false := by
  unfold handleLineStart at h
  split_ifs at h
  · simp only at h
    split at h
    · simp at h
    · simp at h
    · simp at h
    · simp at h
    · split at h <;> simp at h
    · simp only [Except.ok.injEq] at h
      unfold indentation at h
      split_ifs at h
      · simp at h
      · simp only [Prod.mk.injEq] at h; rw [← h.2]
      · simp only at h
        split_ifs at h <;> simp only [Prod.mk.injEq] at h <;> first | (rw [← h.2]; done) | (cases h.1)
      · simp at h
  · simp at h

theorem mem_of_lookup {α : Type} [BEq α] [LawfulBEq α] {l : List (α × String)} {a : α} {k : String}
    (h : l.lookup a = some k) : (a, k) ∈ l := by
  induction l with
  | nil => simp at h
  | cons p l ih =>
    rw [List.lookup_cons] at h
    split at h
    · rename_i he
      simp at h he
      subst h he
      exact List.mem_cons_self
    · exact List.mem_cons_of_mem _ (ih h)

/-- after a token that is not NEWLINE and contains no newline, the lexer is not at a line start -/
theorem step_als {U : Uni} {s s' : St} {t : Tok} (hb : NoBlock s.rest) (hi : Inv s)
    (hpend : s.pending ≠ [] → s.als = false ∨ s.rest = [])
    (h : step U s = .emit t s') (hk : t.kind ≠ "NEWLINE") (hnl : '\n' ∉ t.lexeme) :
    s'.als = false ∨ s'.rest = [] := by
  unfold step at h
  split at h
  · rename_i t' p hp
    simp only [Step.emit.injEq] at h
    obtain ⟨rfl, rfl⟩ := h
    exact hpend (by rw [hp]; simp)
  · rename_i hp
    split at h
    · cases h
    · rename_i t' s1 hh
      simp only [Step.emit.injEq] at h
      obtain ⟨rfl, rfl⟩ := h
      exact Or.inl (handleLineStart_some_als hh)
    · rename_i s1 hh
      have h3 := handleLineStart_als hb hh
      obtain ⟨r, a, hg, rfl⟩ := handleLineStart_none hh
      obtain ⟨w, hw⟩ := hg.suffix
      have hb2 := hb.suffix hw
      unfold afterIndent at h
      split at h
      · cases h
      · rename_i r' nl hr
        have h4 := skipGap_noBlock _ _ _ _ _ hb2 hr
        subst h4
        simp only [Bool.or_false] at h
        -- a line start that is still pending means a newline or the end comes next
        have h5 : a = false ∨ r' = [] ∨ ∃ c r1, r' = c :: r1 ∧ (c = '\n' ∨ c = '\x00') := by
          rcases h3 with h3 | h3 | ⟨c, r1, h3, hc⟩
          · exact Or.inl h3
          · simp only at h3
            subst h3
            have := (gap_skipGap _ _ _ _ _ hr).length
            right; left; exact List.length_eq_zero_iff.mp (by simpa using this)
          · simp only at h3
            subst h3
            right; right
            refine ⟨c, r1, ?_, hc⟩
            rw [skipGap] at hr
            have hd : (c :: r1).dropWhile isBlank = c :: r1 := by
              rcases hc with rfl | rfl <;> simp [isBlank]
            rw [hd] at hr
            rcases hc with rfl | rfl <;> (simp at hr; exact hr.symm)
        unfold scanMain at h
        cases r' with
        | nil =>
          simp only at h
          right
          split at h <;> (simp only [Step.emit.injEq] at h; rw [← h.2])
        | cons c r1 =>
          simp only at h
          split_ifs at h with g1 g2 g3 g4 g5
          · simp only [Step.emit.injEq] at h
            obtain ⟨rfl, rfl⟩ := h
            exact absurd rfl hk
          all_goals
            have ha : a = false ∨ c = '\x00' := by
              rcases h5 with h5 | h5 | ⟨c', r2, h5, hc⟩
              · exact Or.inl h5
              · cases h5
              · simp at h5
                obtain ⟨rfl, -⟩ := h5
                exact Or.inr (hc.resolve_left g1)
          · left
            have ha' : a = false := by
              rcases ha with ha | ha
              · exact ha
              · subst ha; simp at g3
            unfold emitRes at h
            split at h
            · cases h
            · simp only [Step.emit.injEq] at h
              obtain ⟨rfl, rfl⟩ := h
              simp [sawNl, ha', hnl]
          · left
            have ha' : a = false := by
              rcases ha with ha | ha
              · exact ha
              · subst ha; rw [U.ascii_digit _ (by decide)] at g4; simp at g4
            unfold emitRes at h
            split at h
            · cases h
            · simp only [Step.emit.injEq] at h
              obtain ⟨rfl, rfl⟩ := h
              simp [sawNl, ha', hnl]
          · left
            have ha' : a = false := by
              rcases ha with ha | ha
              · exact ha
              · subst ha; rw [U.ascii_alpha _ (by decide)] at g5; simp at g5
            unfold emitRes at h
            simp only [Step.emit.injEq] at h
            obtain ⟨rfl, rfl⟩ := h
            simp [sawNl, ha', hnl]
          · left
            rcases ha with ha | ha
            · unfold scanOp scanSingle at h
              repeat' split at h
              all_goals first
                | cases h; done
                | (simp only [Step.emit.injEq] at h; rw [← h.2]; exact ha)
            · subst ha
              exfalso
              have e1 : ∀ d, twoChar '\x00' d = none := by
                intro d
                cases he : twoChar '\x00' d with
                | none => rfl
                | some k =>
                  have hm := mem_of_lookup he
                  have hall : ∀ p ∈ twoTable, p.1.1 ≠ '\x00' := by decide +kernel
                  exact absurd rfl (hall _ hm)
              have e2 : bracket '\x00' s.depth = none := by simp [bracket]
              have e3 : oneChar '\x00' = none := by decide +kernel
              unfold scanOp scanSingle at h
              simp only [e1, e2, e3] at h
              split at h <;> cases h

/-- what follows a state that is not at a line start -/
theorem run_layout (U : Uni) (n : Nat) : ∀ s ts k, Inv s → NoBlock s.rest →
    (s.pending ≠ [] → s.als = false ∨ s.rest = []) →
    run U n s = some (.ok (ts, k)) → (∀ t ∈ ts, t.kind ≠ "NEWLINE" → '\n' ∉ t.lexeme) →
    (∀ t q, ts = t :: q → t.kind = "INDENT" → s.als = true ∧ s.depth = 0) ∧
    (∀ t q, ts = t :: q → t.kind = "DEDENT" → (s.als = true ∧ s.depth = 0) ∨ s.pending ≠ [] ∨
      ∀ u ∈ q, u.kind = "DEDENT" ∨ u.kind = "EOF") ∧
    (s.rest = [] → ∀ u ∈ ts, u.kind = "DEDENT" ∨ u.kind = "EOF") ∧
    (∀ p u t q, ts = p ++ u :: t :: q → t.kind = "INDENT" → u.kind = "NEWLINE") ∧
    (∀ p u t q, ts = p ++ u :: t :: q → t.kind = "DEDENT" →
      u.kind = "NEWLINE" ∨ u.kind = "DEDENT" ∨ ∀ v ∈ q, v.kind = "DEDENT" ∨ v.kind = "EOF") := by
  induction n with
  | zero => intro s ts k _ _ _ h; simp [run] at h
  | succ n ih =>
    intro s ts k hi hb hpend h hnl
    rw [run] at h
    cases hs : step U s with
    | fail e => rw [hs] at h; simp at h
    | again s' =>
      rw [hs] at h
      simp only at h
      obtain ⟨hp, hd, r, hg, rfl⟩ := step_again hs
      obtain ⟨w, hw⟩ := hg.suffix
      have hb' : NoBlock r := (hb.suffix hw).suffix (w := ['\n']) rfl
      obtain ⟨i1, i2, i3, i4, i5⟩ := ih { s with rest := r, als := true } ts k ⟨hi.pend, hi.bottom⟩ hb'
        (fun c => absurd hp c) h hnl
      have hrest : s.rest ≠ [] := by intro e; rw [e] at hw; cases w <;> simp at hw
      refine ⟨?_, ?_, fun e => absurd e hrest, i4, i5⟩
      · intro t q e hk
        have := (i1 t q e hk).2
        simp only at this; omega
      · intro t q e hk
        rcases i2 t q e hk with h1 | h1 | h1
        · have := h1.2; simp only at this; omega
        · exact absurd hp h1
        · exact Or.inr (Or.inr h1)
    | emit t s' =>
      rw [hs] at h
      simp only at h
      have ht := step_emit hs
      split_ifs at h with hk
      · simp at h
        obtain ⟨rfl, rfl⟩ := h
        refine ⟨?_, ?_, ?_, ?_, ?_⟩
        · intro t' q e hk'; simp at e; rw [← e.1, hk] at hk'; simp at hk'
        · intro t' q e hk'; simp at e; rw [← e.1, hk] at hk'; simp at hk'
        · intro _ u hu; simp at hu; subst hu; exact Or.inr hk
        · intro p u t' q e; cases p <;> simp at e
        · intro p u t' q e; cases p <;> simp at e
      · simp only [Option.map_eq_some_iff] at h
        obtain ⟨r, h1, h2⟩ := h
        obtain ⟨⟨ts', k'⟩, rfl, h3⟩ := except_map_ok h2
        simp at h3
        obtain ⟨rfl, rfl⟩ := h3
        have hgap := trans_gap ht hi
        obtain ⟨w, hw⟩ := hgap.suffix
        have hb' : NoBlock s'.rest := (hb.suffix hw).suffix rfl
        have hpend' : s'.pending ≠ [] → (s'.als = false ∨ s'.rest = []) ∧ t.kind = "DEDENT" := by
          intro hne
          cases ht with
          | pend t p hp =>
            have := hi.pend t (by rw [hp]; exact List.mem_cons_self)
            exact ⟨hpend (by rw [hp]; simp), by rw [this]; rfl⟩
          | indent w r hp => exact absurd hp hne
          | dedent => exact ⟨Or.inl rfl, rfl⟩
          | lenient => exact ⟨Or.inl rfl, rfl⟩
          | eofd => exact ⟨Or.inr rfl, rfl⟩
          | eof a hp => exact absurd hp hne
          | newline r hp => exact absurd hp hne
          | real l t r a hp => exact absurd hp hne
          | brk c r a k d hp => exact absurd hp hne
        obtain ⟨i1, i2, i3, i4, i5⟩ := ih s' ts' _ (trans_inv ht hi) hb' (fun c => (hpend' c).1) h1
          (fun u hu => hnl u (List.mem_cons_of_mem _ hu))
        have hals : t.kind ≠ "NEWLINE" → s'.als = false ∨ s'.rest = [] := fun hkn =>
          step_als hb hi hpend hs hkn (hnl t List.mem_cons_self hkn)
        refine ⟨?_, ?_, ?_, ?_, ?_⟩
        · intro t' q e hk'
          simp at e
          obtain ⟨rfl, rfl⟩ := e
          cases ht with
          | pend t p hp =>
            have := hi.pend t (by rw [hp]; exact List.mem_cons_self)
            rw [this] at hk'; simp [dedentTok] at hk'
          | indent w r hp ha hd => exact ⟨ha, hd⟩
          | dedent r i k st hp ha hd => exact ⟨ha, hd⟩
          | lenient r i k st hp ha hd => exact ⟨ha, hd⟩
          | eofd => simp [dedentTok] at hk'
          | eof => simp at hk'
          | newline => simp at hk'
          | real l t r a hp hg hr => exact absurd (by rw [hk']; simp) hr.2.2
          | brk c r a k d hp hg hb2 =>
            unfold bracket at hb2
            split_ifs at hb2 <;> (simp at hb2; obtain ⟨rfl, -⟩ := hb2; simp at hk')
        · intro t' q e hk'
          simp at e
          obtain ⟨rfl, rfl⟩ := e
          cases ht with
          | pend t p hp => right; left; rw [hp]; simp
          | indent w r hp ha hd => exact Or.inl ⟨ha, hd⟩
          | dedent r i k st hp ha hd => exact Or.inl ⟨ha, hd⟩
          | lenient r i k st hp ha hd => exact Or.inl ⟨ha, hd⟩
          | eofd => right; right; exact i3 rfl
          | eof => simp at hk'
          | newline => simp at hk'
          | real l t r a hp hg hr => exact absurd (by rw [hk']; simp) hr.2.2
          | brk c r a k d hp hg hb2 =>
            unfold bracket at hb2
            split_ifs at hb2 <;> (simp at hb2; obtain ⟨rfl, -⟩ := hb2; simp at hk')
        · intro he
          rw [he] at hgap
          have hl := hgap.length
          simp at hl
          have hr' : s'.rest = [] := hl.2
          intro u hu
          rcases List.mem_cons.mp hu with rfl | hu
          · left
            cases ht with
            | pend t p hp =>
              have := hi.pend u (by rw [hp]; exact List.mem_cons_self)
              rw [this]; rfl
            | indent w r hp ha hd hr hg hlt =>
              rw [he] at hr
              have : w = [] := by
                cases w with
                | nil => rfl
                | cons a w => simp at hr
              subst this; simp at hlt
            | dedent => rfl
            | lenient => rfl
            | eofd => rfl
            | eof => exact absurd rfl hk
            | newline => simp at hl
            | real l t r a hp hg hr => exact absurd hl.1 hr.2.1
            | brk => simp at hl
          · exact i3 hr' u hu
        · intro p u t' q e hk'
          cases p with
          | nil =>
            simp at e
            obtain ⟨rfl, rfl⟩ := e
            by_contra hn
            rcases hals hn with h0 | h0
            · have := (i1 t' q rfl hk').1; rw [h0] at this; cases this
            · have := i3 h0 t' List.mem_cons_self
              rw [hk'] at this; simp at this
          | cons a p =>
            simp at e
            exact i4 p u t' q e.2 hk'
        · intro p u t' q e hk'
          cases p with
          | nil =>
            simp at e
            obtain ⟨rfl, rfl⟩ := e
            by_cases hn : t.kind = "NEWLINE"
            · exact Or.inl hn
            · rcases hals hn with h0 | h0
              · rcases i2 t' q rfl hk' with h4 | h4 | h4
                · rw [h0] at h4; cases h4.1
                · exact Or.inr (Or.inl (hpend' h4).2)
                · exact Or.inr (Or.inr h4)
              · exact Or.inr (Or.inr fun v hv => i3 h0 v (List.mem_cons_of_mem _ hv))
          | cons a p =>
            simp at e
            exact i5 p u t' q e.2 hk'

/-- C75 (partial): in a source without block comments and without string literals spanning lines, an INDENT
comes only at the very beginning or right after a NEWLINE, and a DEDENT only right after a NEWLINE, another
DEDENT, or at the end. Missing: sources with those constructs, for which it is false
(`C75_multiline_string_indents`, `C24_leading_comment_indents`). -/
theorem C75_layout_partial (U : Uni) (src : List Char) (ts : List Tok) (k : Nat)
    (h : tokenize U src = some (.ok (ts, k))) (hb : ¬ ['/', '*'] <:+: src)
    (hnl : ∀ t ∈ ts, t.kind ≠ "NEWLINE" → '\n' ∉ t.lexeme) :
    (∀ p u t q, ts = p ++ u :: t :: q → t.kind = "INDENT" → u.kind = "NEWLINE") ∧
    (∀ p u t q, ts = p ++ u :: t :: q → t.kind = "DEDENT" →
      u.kind = "NEWLINE" ∨ u.kind = "DEDENT" ∨ ∀ v ∈ q, v.kind = "DEDENT" ∨ v.kind = "EOF") :=
  (run_layout U _ _ ts k (inv_init src) hb (fun c => absurd rfl c) h hnl).2.2.2

/-- Non-vacuity: the nested-blocks example satisfies the hypotheses. -/
example : ¬ ['/', '*'] <:+: "if a:\n  if b:\n    x\ny".toList := by decide +kernel

end Verif.Lexer
