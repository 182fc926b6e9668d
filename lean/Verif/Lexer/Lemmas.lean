import Verif.Lexer.Spec

namespace Verif.Lexer

/-! ### block comments -/

theorem comment_of_blockRest (d : Nat) (l : List Char) (nl : Bool) (r : List Char) (nl' : Bool)
    (h : blockRest d l nl = some (r, nl')) : Comment d l r := by
  fun_induction blockRest d l nl with
  | case1 r' nl => simp at h; rw [h.1]; exact .done _
  | case2 => simp at h
  | case3 nl d r' ih => exact .opn _ _ _ (ih h)
  | case4 nl d r' ih => exact .cls _ _ _ (ih h)
  | case5 nl d c r' h1 h2 ih =>
    refine .chr _ _ _ _ ?_ ?_ (ih h)
    · rintro ⟨rfl, t, ht⟩
      exact h1 t rfl (by rw [← ht]; rfl)
    · rintro ⟨rfl, t, ht⟩
      exact h2 t rfl (by rw [← ht]; rfl)

/-- reading a comment body: the result, and the newline flag -/
theorem blockRest_of_comment (d : Nat) (l r : List Char) (h : Comment d l r) :
    ∀ nl, ∃ nl', blockRest d l nl = some (r, nl') ∧ (nl' = true ↔ nl = true ∨ ∃ w, l = w ++ r ∧ '\n' ∈ w) := by
  induction h with
  | done r =>
    intro nl
    refine ⟨nl, by rw [blockRest], ?_⟩
    constructor
    · exact Or.inl
    · rintro (h | ⟨w, hw, hn⟩)
      · exact h
      · have : w = [] := by
          have := congrArg List.length hw
          simp at this; exact this
        subst this; cases hn
  | opn d l r _ ih =>
    intro nl
    obtain ⟨nl', h1, h2⟩ := ih nl
    refine ⟨nl', by rw [blockRest]; exact h1, ?_⟩
    rw [h2]
    constructor
    · rintro (h | ⟨w, rfl, hn⟩)
      · exact Or.inl h
      · exact Or.inr ⟨'/' :: '*' :: w, rfl, by simp [hn]⟩
    · rintro (h | ⟨w, hw, hn⟩)
      · exact Or.inl h
      · right
        match w, hw, hn with
        | [], hw, hn => cases hn
        | [a], hw, hn =>
          simp at hw; obtain ⟨rfl, hw⟩ := hw
          simp at hn
        | a :: b :: w, hw, hn =>
          simp at hw; obtain ⟨rfl, rfl, hw⟩ := hw
          simp at hn
          exact ⟨w, hw, hn⟩
  | cls d l r _ ih =>
    intro nl
    obtain ⟨nl', h1, h2⟩ := ih nl
    refine ⟨nl', by rw [blockRest]; exact h1, ?_⟩
    rw [h2]
    constructor
    · rintro (h | ⟨w, rfl, hn⟩)
      · exact Or.inl h
      · exact Or.inr ⟨'*' :: '/' :: w, rfl, by simp [hn]⟩
    · rintro (h | ⟨w, hw, hn⟩)
      · exact Or.inl h
      · right
        match w, hw, hn with
        | [], hw, hn => cases hn
        | [a], hw, hn =>
          simp at hw; obtain ⟨rfl, hw⟩ := hw
          simp at hn
        | a :: b :: w, hw, hn =>
          simp at hw; obtain ⟨rfl, rfl, hw⟩ := hw
          simp at hn
          exact ⟨w, hw, hn⟩
  | chr d c l r n1 n2 hc ih =>
    intro nl
    obtain ⟨nl', h1, h2⟩ := ih (nl || decide (c = '\n'))
    refine ⟨nl', ?_, ?_⟩
    · rw [blockRest]
      · exact h1
      · rintro t rfl rfl; exact n1 ⟨rfl, t, rfl⟩
      · rintro t rfl rfl; exact n2 ⟨rfl, t, rfl⟩
    · rw [h2]
      simp only [Bool.or_eq_true, decide_eq_true_eq]
      constructor
      · rintro ((h | h) | ⟨w, rfl, hn⟩)
        · exact Or.inl h
        · right
          have : ∃ w, l = w ++ r := by
            clear n1 n2 h1 h2 ih
            generalize d + 1 = d' at hc
            induction hc with
            | done r => exact ⟨[], rfl⟩
            | opn _ _ _ _ ih => obtain ⟨w, rfl⟩ := ih; exact ⟨'/' :: '*' :: w, rfl⟩
            | cls _ _ _ _ ih => obtain ⟨w, rfl⟩ := ih; exact ⟨'*' :: '/' :: w, rfl⟩
            | chr _ c _ _ _ _ _ ih => obtain ⟨w, rfl⟩ := ih; exact ⟨c :: w, rfl⟩
          obtain ⟨w, rfl⟩ := this
          exact ⟨c :: w, rfl, by simp [h]⟩
        · exact Or.inr ⟨c :: w, rfl, by simp [hn]⟩
      · rintro (h | ⟨w, hw, hn⟩)
        · exact Or.inl (Or.inl h)
        · match w, hw, hn with
          | [], hw, hn => cases hn
          | a :: w, hw, hn =>
            simp at hw; obtain ⟨rfl, hw⟩ := hw
            simp at hn
            rcases hn with rfl | hn
            · exact Or.inl (Or.inr rfl)
            · exact Or.inr ⟨w, hw, hn⟩

theorem Comment.suffix {d l r} (h : Comment d l r) : ∃ w, l = w ++ r := by
  induction h with
  | done r => exact ⟨[], rfl⟩
  | opn _ _ _ _ ih => obtain ⟨w, rfl⟩ := ih; exact ⟨'/' :: '*' :: w, rfl⟩
  | cls _ _ _ _ ih => obtain ⟨w, rfl⟩ := ih; exact ⟨'*' :: '/' :: w, rfl⟩
  | chr _ c _ _ _ _ _ ih => obtain ⟨w, rfl⟩ := ih; exact ⟨c :: w, rfl⟩

theorem Comment.det {d l r r'} (h : Comment d l r) (h' : Comment d l r') : r = r' := by
  obtain ⟨_, h1, -⟩ := blockRest_of_comment _ _ _ h false
  obtain ⟨_, h2, -⟩ := blockRest_of_comment _ _ _ h' false
  rw [h1] at h2; simp at h2; exact h2.1

/-! ### gaps -/

theorem Gap.trans {a b c} (h : Gap a b) (h' : Gap b c) : Gap a c := by
  induction h with
  | refl => exact h'
  | blank c l r hc _ ih => exact .blank _ _ _ hc (ih h')
  | line w l r hw hl _ ih => exact .line _ _ _ hw hl (ih h')
  | block l l' r hc _ ih => exact .block _ _ _ hc (ih h')

theorem Gap.suffix {l r} (h : Gap l r) : ∃ w, l = w ++ r := by
  induction h with
  | refl => exact ⟨[], rfl⟩
  | blank c _ _ _ _ ih => obtain ⟨w, rfl⟩ := ih; exact ⟨c :: w, rfl⟩
  | line w' _ _ _ _ _ ih => obtain ⟨w, rfl⟩ := ih; exact ⟨'#' :: (w' ++ w), by simp⟩
  | block _ _ _ hc _ ih =>
    obtain ⟨w, rfl⟩ := ih
    obtain ⟨w', rfl⟩ := hc.suffix
    exact ⟨'/' :: '*' :: (w' ++ w), by simp⟩

theorem Gap.length {l r} (h : Gap l r) : r.length ≤ l.length := by
  obtain ⟨w, rfl⟩ := h.suffix
  simp

theorem gap_dropBlank (l : List Char) : Gap l (l.dropWhile isBlank) := by
  induction l with
  | nil => exact .refl _
  | cons c l ih =>
    rw [List.dropWhile_cons]
    split_ifs with h
    · refine .blank _ _ _ ?_ ih
      simp [isBlank] at h
      rcases h with h | h
      · exact Or.inl h
      · exact Or.inr (Or.inl h)
    · exact .refl _

theorem dropWhile_nl (l : List Char) :
    l.dropWhile (· ≠ '\n') = [] ∨ ['\n'] <+: l.dropWhile (· ≠ '\n') := by
  induction l with
  | nil => left; rfl
  | cons c l ih =>
    rw [List.dropWhile_cons]
    split_ifs with h
    · exact ih
    · right
      simp at h
      subst h
      exact ⟨l, rfl⟩

theorem gap_skipComment (r : List Char) : Gap ('#' :: r) (skipComment ('#' :: r)) := by
  unfold skipComment
  rw [List.dropWhile_cons, if_pos (by decide)]
  have h : r = r.takeWhile (· ≠ '\n') ++ r.dropWhile (· ≠ '\n') := List.takeWhile_append_dropWhile.symm
  conv => arg 1; rw [h]
  refine .line _ _ _ ?_ (dropWhile_nl r) (.refl _)
  intro hm
  have h2 : ∀ (l : List Char), '\n' ∉ l.takeWhile (· ≠ '\n') := by
    intro l
    induction l with
    | nil => simp
    | cons c l ih =>
      rw [List.takeWhile_cons]
      split_ifs with hc
      · simp at hc
        simp only [List.mem_cons, not_or]
        exact ⟨fun e => hc e.symm, ih⟩
      · simp
  exact h2 _ hm

theorem gap_block (r r' : List Char) (nl nl' : Bool) (h : blockRest 1 r nl = some (r', nl')) :
    Gap ('/' :: '*' :: r) r' := .block _ _ _ (comment_of_blockRest _ _ _ _ _ h) (.refl _)

theorem gap_skipGap (n : Nat) : ∀ (l : List Char) (nl : Bool) (r : List Char) (nl' : Bool),
    skipGap n l nl = some (r, nl') → Gap l r := by
  induction n with
  | zero => intro l nl r nl' h; simp [skipGap] at h; rw [h.1]; exact .refl _
  | succ n ih =>
    intro l nl r nl' h
    rw [skipGap] at h
    refine (gap_dropBlank l).trans ?_
    split at h
    · rename_i r1 he
      rw [he]
      exact (gap_skipComment _).trans (ih _ _ _ _ h)
    · rename_i r1 he
      rw [he]
      split at h
      · cases h
      · rename_i r2 b hb
        exact (gap_block _ _ _ _ hb).trans (ih _ _ _ _ h)
    · simp at h; rw [h.1]; exact .refl _

/-! ### what scanning functions consume -/

theorem consumed_append {w r : List Char} : consumed (w ++ r) r = w := by
  unfold consumed
  simp

theorem scanEscape_suffix {l r : List Char} {c : Char} (h : scanEscape l = some (c, r)) :
    ∃ w, w ≠ [] ∧ l = w ++ r := by
  unfold scanEscape at h
  split at h
  · cases h
  · rename_i c' r'
    split at h
    · simp at h; exact ⟨[c'], by simp, by simp [h.2]⟩
    · split_ifs at h
      · split at h
        · rename_i a b r2
          simp only [Option.map_eq_some_iff, Prod.mk.injEq] at h
          obtain ⟨_, _, _, rfl⟩ := h
          exact ⟨[c', a, b], by simp, rfl⟩
        · cases h
      · split at h
        · rename_i a b d e r2
          simp only [Option.map_eq_some_iff, Prod.mk.injEq] at h
          obtain ⟨_, _, _, rfl⟩ := h
          exact ⟨[c', a, b, d, e], by simp, rfl⟩
        · cases h

theorem except_map_ok {ε α β : Type} {x : Except ε α} {f : α → β} {b : β} (h : x.map f = .ok b) :
    ∃ a, x = .ok a ∧ f a = b := by
  cases x with
  | error e => simp [Except.map] at h
  | ok a => simp [Except.map] at h; exact ⟨a, rfl, h⟩

theorem stringBody_suffix (q : Char) (n : Nat) : ∀ (l v r : List Char),
    stringBody q n l = .ok (v, r) → ∃ w, w ≠ [] ∧ l = w ++ r := by
  induction n with
  | zero => intro l v r h; simp [stringBody] at h
  | succ n ih =>
    intro l v r h
    cases l with
    | nil => simp [stringBody] at h
    | cons c l =>
      rw [stringBody] at h
      split_ifs at h
      · simp at h; exact ⟨[c], by simp, by simp [h.2]⟩
      · split at h
        · cases h
        · rename_i e r' he
          obtain ⟨⟨v', t⟩, h1, h2⟩ := except_map_ok h
          simp at h2
          obtain ⟨w1, _, rfl⟩ := scanEscape_suffix he
          obtain ⟨w2, _, rfl⟩ := ih _ _ _ h1
          exact ⟨c :: (w1 ++ w2), by simp, by simp [h2.2]⟩
      · obtain ⟨⟨v', t⟩, h1, h2⟩ := except_map_ok h
        simp at h2
        obtain ⟨w2, _, rfl⟩ := ih _ _ _ h1
        exact ⟨c :: w2, by simp, by simp [h2.2]⟩

theorem tripleBody_suffix (q : Char) (n : Nat) : ∀ (l v r : List Char),
    tripleBody q n l = .ok (v, r) → ∃ w, w ≠ [] ∧ l = w ++ r := by
  induction n with
  | zero => intro l v r h; simp [tripleBody] at h
  | succ n ih =>
    intro l v r h
    cases l with
    | nil => simp [tripleBody] at h
    | cons c l =>
      rw [tripleBody] at h
      split_ifs at h
      · simp at h
        refine ⟨c :: l.take 2, by simp, ?_⟩
        rw [← h.2]; simp
      · split at h
        · cases h
        · rename_i e r' he
          obtain ⟨⟨v', t⟩, h1, h2⟩ := except_map_ok h
          simp at h2
          obtain ⟨w1, _, rfl⟩ := scanEscape_suffix he
          obtain ⟨w2, _, rfl⟩ := ih _ _ _ h1
          exact ⟨c :: (w1 ++ w2), by simp, by simp [h2.2]⟩
      · obtain ⟨⟨v', t⟩, h1, h2⟩ := except_map_ok h
        simp at h2
        obtain ⟨w2, _, rfl⟩ := ih _ _ _ h1
        exact ⟨c :: w2, by simp, by simp [h2.2]⟩

/-- a scanner's good outcome: a non-empty lexeme cut off the text, of a kind other than the structural ones -/
def Real (l : List Char) (t : Tok) (r : List Char) : Prop :=
  l = t.lexeme ++ r ∧ t.lexeme ≠ [] ∧ t.kind ∉ ["INDENT", "DEDENT", "EOF", "NEWLINE", "LPAREN", "RPAREN",
    "LBRACKET", "RBRACKET", "LBRACE", "RBRACE"]

theorem scanString_real {l r : List Char} {t : Tok} (h : scanString l = .ok (t, r)) : Real l t r := by
  unfold scanString at h
  split at h
  · cases h
  · rename_i q r0
    obtain ⟨⟨v, r'⟩, h1, h2⟩ := except_map_ok h
    simp at h2
    obtain ⟨rfl, rfl⟩ := h2
    have : ∃ w, w ≠ [] ∧ q :: r0 = w ++ r' := by
      split_ifs at h1
      · obtain ⟨w, _, hw⟩ := tripleBody_suffix _ _ _ _ _ h1
        refine ⟨q :: (r0.take 2 ++ w), by simp, ?_⟩
        rw [List.cons_append, List.append_assoc, ← hw, List.take_append_drop]
      · obtain ⟨w, _, hw⟩ := stringBody_suffix _ _ _ _ _ h1
        exact ⟨q :: w, by simp, by rw [hw]; simp⟩
    obtain ⟨w, hw, e⟩ := this
    rw [e]
    refine ⟨?_, ?_, ?_⟩
    · simp only [consumed_append]
    · simp only [consumed_append]; exact hw
    · simp only; decide

theorem fracPart_append (U : Uni) (l : List Char) : (fracPart U l).1 ++ (fracPart U l).2 = l := by
  unfold fracPart
  split
  · split_ifs
    · simp
    · simp
  · simp

theorem signPart_append (l : List Char) : (signPart l).1 ++ (signPart l).2 = l := by
  unfold signPart
  split <;> simp

theorem expPart_append (U : Uni) (l e r : List Char) (h : expPart U l = .ok (e, r)) : e ++ r = l := by
  unfold expPart at h
  split at h
  · simp at h; simp [h.1, h.2]
  · rename_i c r0
    split_ifs at h
    · simp only at h
      split_ifs at h
      simp only [Except.ok.injEq, Prod.mk.injEq] at h
      obtain ⟨rfl, rfl⟩ := h
      have := signPart_append r0
      rw [List.cons_append, List.append_assoc, List.takeWhile_append_dropWhile, this]
    · simp at h; simp [h.1, h.2]

theorem scanDec_real {U : Uni} {l r : List Char} {t : Tok} (hd : headIs U.isdigit l = true)
    (h : scanDec U l = .ok (t, r)) : Real l t r := by
  have hne : l.takeWhile U.isdigit ≠ [] := by
    cases l with
    | nil => simp [headIs] at hd
    | cons c l => simp only [headIs] at hd; simp [List.takeWhile_cons, hd]
  unfold scanDec at h
  simp only at h
  split at h
  · cases h
  · rename_i e r3 he
    have h1 := fracPart_append U (l.dropWhile U.isdigit)
    have h2 := expPart_append _ _ _ _ he
    have h3 : l = l.takeWhile U.isdigit ++ l.dropWhile U.isdigit := List.takeWhile_append_dropWhile.symm
    split_ifs at h with hc hc2
    · split at h
      · simp only [Except.ok.injEq, Prod.mk.injEq] at h
        obtain ⟨rfl, rfl⟩ := h
        simp at hc
        refine ⟨?_, hne, by simp only; decide⟩
        rw [hc.2] at h2
        rw [hc.1] at h1
        simp only [List.nil_append] at h1 h2
        simp only
        rw [h2, h1]; exact h3
      · cases h
    · simp only [Except.ok.injEq, Prod.mk.injEq] at h
      obtain ⟨rfl, rfl⟩ := h
      refine ⟨?_, by simp [hne], by simp only; decide⟩
      simp only [List.append_assoc]
      rw [h2, h1]; exact h3

theorem scanBased_real {b : Nat} {dv : Char → Option Nat} {err : String} {pre l r : List Char} {t : Tok}
    (hp : pre ≠ []) (h : scanBased b dv err pre l = .ok (t, r)) : Real (pre ++ l) t r := by
  unfold scanBased at h
  split_ifs at h
  simp only at h
  split at h
  · simp only [Except.ok.injEq, Prod.mk.injEq] at h
    obtain ⟨rfl, rfl⟩ := h
    refine ⟨?_, by simp [hp], by simp only; decide⟩
    simp only [List.append_assoc]
    rw [List.takeWhile_append_dropWhile]
  · cases h

theorem scanNumber_real {U : Uni} {l r : List Char} {t : Tok} (hd : headIs U.isdigit l = true)
    (h : scanNumber U l = .ok (t, r)) : Real l t r := by
  unfold scanNumber at h
  split at h
  · split_ifs at h
    · exact scanBased_real (pre := ['0', _]) (by simp) h
    · exact scanBased_real (pre := ['0', _]) (by simp) h
    · exact scanDec_real hd h
  · exact scanDec_real hd h

theorem lookup_kind {α : Type} [BEq α] {l : List (α × String)} {a : α} {k : String} (h : l.lookup a = some k) :
    k ∈ l.map Prod.snd := by
  induction l with
  | nil => simp at h
  | cons p l ih =>
    rw [List.lookup_cons] at h
    split at h
    · simp at h; simp [h]
    · simp [ih h]

theorem scanIdent_real {U : Uni} {l : List Char} (hd : headIs (fun c => U.isalpha c || c = '_') l = true) :
    Real l (scanIdent U l).1 (scanIdent U l).2 := by
  have hne : l.takeWhile (fun c => U.isalnum c || c = '_') ≠ [] := by
    cases l with
    | nil => simp [headIs] at hd
    | cons c l =>
      simp only [headIs, Bool.or_eq_true, decide_eq_true_eq] at hd
      have : (U.isalnum c || decide (c = '_')) = true := by
        rcases hd with h | h
        · simp [Uni.isalnum, h]
        · simp [h]
      simp [List.takeWhile_cons, this]
  have happ : l = l.takeWhile (fun c => U.isalnum c || c = '_') ++ l.dropWhile (fun c => U.isalnum c || c = '_') :=
    List.takeWhile_append_dropWhile.symm
  unfold scanIdent
  simp only
  split
  · rename_i k hk
    refine ⟨happ, hne, ?_⟩
    have := lookup_kind hk
    have hall : ∀ k ∈ keywords.map Prod.snd, k ∉ ["INDENT", "DEDENT", "EOF", "NEWLINE", "LPAREN", "RPAREN",
        "LBRACKET", "RBRACKET", "LBRACE", "RBRACE"] := by decide +kernel
    exact hall k this
  · exact ⟨happ, hne, by simp only; decide⟩

/-! ### one round -/

/-- the ways one round of the lexer can produce a token -/
inductive Trans (s : St) : Tok → St → Prop
  | pend (t p) : s.pending = t :: p → Trans s t { s with pending := p }
  | indent (w r) : s.pending = [] → s.als = true → s.depth = 0 → s.rest = w ++ r → Gap s.rest r →
      s.indents.headD 0 < w.length →
      Trans s indentTok { s with rest := r, als := false, indents := w.length :: s.indents }
  | dedent (r i k st) : s.pending = [] → s.als = true → s.depth = 0 → Gap s.rest r →
      popDedent i s.indents = (k + 1, st) → st.headD 0 = i →
      Trans s dedentTok { s with rest := r, als := false, indents := st, pending := List.replicate k dedentTok }
  | lenient (r i k st) : s.pending = [] → s.als = true → s.depth = 0 → Gap s.rest r →
      popDedent i s.indents = (k + 1, st) → st.headD 0 ≠ i →
      Trans s dedentTok { s with rest := r, als := false, indents := i :: st, odd := s.odd + 1,
                                 pending := List.replicate k dedentTok }
  | eofd (a k) : s.pending = [] → Gap s.rest [] → s.indents.length = k + 2 →
      Trans s dedentTok { s with rest := [], als := a, indents := s.indents.drop (k + 1),
                                 pending := List.replicate k dedentTok }
  | eof (a) : s.pending = [] → Gap s.rest [] → s.indents.length ≤ 1 →
      Trans s ⟨"EOF", .none, []⟩ { s with rest := [], als := a }
  | newline (r) : s.pending = [] → s.depth = 0 → Gap s.rest ('\n' :: r) →
      Trans s ⟨"NEWLINE", .none, ['\n']⟩ { s with rest := r, als := true }
  | real (l t r a) : s.pending = [] → Gap s.rest l → Real l t r → Trans s t { s with rest := r, als := a }
  | brk (c r a k d) : s.pending = [] → Gap s.rest (c :: r) → bracket c s.depth = some (k, d) →
      Trans s ⟨k, .text [c], [c]⟩ { s with rest := r, als := a, depth := d }

theorem oneChar_kind {c : Char} {k : String} (h : oneChar c = some k) :
    k ∉ ["INDENT", "DEDENT", "EOF", "NEWLINE", "LPAREN", "RPAREN", "LBRACKET", "RBRACKET", "LBRACE", "RBRACE"] := by
  have hall : ∀ k ∈ oneTable.map Prod.snd, k ∉ ["INDENT", "DEDENT", "EOF", "NEWLINE", "LPAREN", "RPAREN",
      "LBRACKET", "RBRACKET", "LBRACE", "RBRACE"] := by decide +kernel
  exact hall k (lookup_kind h)

theorem twoChar_kind {c d : Char} {k : String} (h : twoChar c d = some k) :
    k ∉ ["INDENT", "DEDENT", "EOF", "NEWLINE", "LPAREN", "RPAREN", "LBRACKET", "RBRACKET", "LBRACE", "RBRACE"] := by
  have hall : ∀ k ∈ twoTable.map Prod.snd, k ∉ ["INDENT", "DEDENT", "EOF", "NEWLINE", "LPAREN", "RPAREN",
      "LBRACKET", "RBRACKET", "LBRACE", "RBRACE"] := by decide +kernel
  exact hall k (lookup_kind h)

theorem scanSingle_trans {s s' : St} {c : Char} {r : List Char} {t : Tok} {s0 : St} {a : Bool}
    (hp : s0.pending = []) (hg : Gap s0.rest (c :: r)) (hs : s = { s0 with rest := c :: r, als := a })
    (h : scanSingle s c r = .emit t s') : Trans s0 t s' := by
  subst hs
  unfold scanSingle at h
  split at h
  · rename_i k d hb
    simp only [Step.emit.injEq] at h
    obtain ⟨rfl, rfl⟩ := h
    exact .brk c r a k d hp hg hb
  · split at h
    · rename_i k hk
      simp only [Step.emit.injEq] at h
      obtain ⟨rfl, rfl⟩ := h
      exact .real _ _ r a hp hg ⟨rfl, by simp, oneChar_kind hk⟩
    · cases h

theorem scanMain_trans {U : Uni} {s s0 s' : St} {t : Tok} {r : List Char} {a : Bool}
    (hp : s0.pending = []) (hg : Gap s0.rest r) (hs : s = { s0 with rest := r, als := a })
    (h : scanMain U s = .emit t s') : Trans s0 t s' := by
  subst hs
  unfold scanMain at h
  cases r with
  | nil =>
    simp only [hp, List.nil_append] at h
    match hi : s0.indents.length with
    | 0 =>
      simp only [hi] at h
      simp at h
      obtain ⟨rfl, rfl⟩ := h
      have := Trans.eof a hp hg (by omega : s0.indents.length ≤ 1)
      rw [hp] at this
      exact this
    | 1 =>
      simp only [hi] at h
      simp at h
      obtain ⟨rfl, rfl⟩ := h
      have := Trans.eof a hp hg (by omega : s0.indents.length ≤ 1)
      rw [hp] at this
      exact this
    | k + 2 =>
      simp only [hi, show k + 2 - 1 = k + 1 from rfl, List.replicate_succ] at h
      simp only [Step.emit.injEq] at h
      obtain ⟨rfl, rfl⟩ := h
      exact Trans.eofd a k hp hg hi
  | cons c r =>
    simp only at h
    split_ifs at h with h1 h2 h3 h4 h5
    · simp only [Step.emit.injEq] at h
      obtain ⟨rfl, rfl⟩ := h
      subst h1
      exact .newline r hp h2 hg
    · unfold emitRes at h
      split at h
      · cases h
      · rename_i t' r' hr
        simp only [Step.emit.injEq] at h
        obtain ⟨rfl, rfl⟩ := h
        exact .real _ _ _ _ hp hg (scanString_real hr)
    · unfold emitRes at h
      split at h
      · cases h
      · rename_i t' r' hr
        simp only [Step.emit.injEq] at h
        obtain ⟨rfl, rfl⟩ := h
        exact .real _ _ _ _ hp hg (scanNumber_real (by simpa [headIs] using h4) hr)
    · unfold emitRes at h
      simp only [Step.emit.injEq] at h
      obtain ⟨rfl, rfl⟩ := h
      exact .real _ _ _ _ hp hg (scanIdent_real (by simpa [headIs] using h5))
    · unfold scanOp at h
      split at h
      · rename_i d r'
        split at h
        · rename_i k hk
          simp only [Step.emit.injEq] at h
          obtain ⟨rfl, rfl⟩ := h
          exact .real _ _ r' a hp hg ⟨rfl, by simp, twoChar_kind hk⟩
        · exact scanSingle_trans hp hg rfl h
      · exact scanSingle_trans hp hg rfl h

/-- what `handleLineStart` does when it yields no token -/
theorem handleLineStart_none {s s' : St} (h : handleLineStart s = .ok (none, s')) :
    ∃ r a, Gap s.rest r ∧ s' = { s with rest := r, als := a } := by
  unfold handleLineStart at h
  split_ifs at h with hals
  · simp only at h
    have hb := gap_dropBlank s.rest
    split at h
    · rename_i he
      simp only [Except.ok.injEq, Prod.mk.injEq, true_and] at h
      rw [he] at hb h
      exact ⟨_, s.als, hb, h.symm⟩
    · rename_i he
      simp only [Except.ok.injEq, Prod.mk.injEq, true_and] at h
      exact ⟨_, s.als, hb, h.symm⟩
    · rename_i he
      simp only [Except.ok.injEq, Prod.mk.injEq, true_and] at h
      exact ⟨_, s.als, hb, h.symm⟩
    · rename_i r he
      simp only [Except.ok.injEq, Prod.mk.injEq, true_and] at h
      rw [he] at hb h
      exact ⟨_, s.als, hb.trans (gap_skipComment r), h.symm⟩
    · rename_i r he
      rw [he] at hb
      split at h
      · cases h
      · rename_i r' b hr
        simp only [Except.ok.injEq, Prod.mk.injEq, true_and] at h
        exact ⟨_, s.als, hb.trans (gap_block _ _ _ _ hr), h.symm⟩
    · refine ⟨_, false, hb, ?_⟩
      simp only [Except.ok.injEq] at h
      unfold indentation at h
      split_ifs at h with h1 h2 h3
      · simp at h; exact h.symm
      · simp at h
      · simp only at h
        have hk : ∀ st : List Nat, ∀ i, i < st.headD 0 → (popDedent i st).1 ≠ 0 := by
          intro st i hi
          cases st with
          | nil => simp at hi
          | cons t st =>
            simp at hi
            simp [popDedent, hi]
        rw [if_neg (hk _ _ h3)] at h
        simp at h
      · simp at h; exact h.symm
  · simp at h
    refine ⟨s.rest, s.als, .refl _, ?_⟩
    rw [← h]

theorem handleLineStart_some {s s' : St} {t : Tok} (hp : s.pending = [])
    (h : handleLineStart s = .ok (some t, s')) : Trans s t s' := by
  unfold handleLineStart at h
  split_ifs at h with hals
  · simp only at h
    have hb := gap_dropBlank s.rest
    split at h
    · simp at h
    · simp at h
    · simp at h
    · simp at h
    · split at h <;> simp at h
    · simp only [Except.ok.injEq] at h
      unfold indentation at h
      split_ifs at h with h1 h2 h3
      · simp at h
      · simp only [Prod.mk.injEq, Option.some.injEq] at h
        obtain ⟨rfl, rfl⟩ := h
        exact .indent (s.rest.takeWhile isBlank) _ hp hals (by simpa using h1)
          List.takeWhile_append_dropWhile.symm hb h2
      · simp only at h
        generalize hpop : popDedent (s.rest.takeWhile isBlank).length s.indents = p at h
        obtain ⟨k, st⟩ := p
        simp only at h
        match k with
        | 0 => simp at h
        | k + 1 =>
          rw [if_neg (by omega)] at h
          simp only [Prod.mk.injEq, Option.some.injEq] at h
          obtain ⟨rfl, rfl⟩ := h
          by_cases he : st.headD 0 = (s.rest.takeWhile isBlank).length
          · have := Trans.dedent _ _ k st hp hals (by simpa using h1) hb hpop he
            simp only [he, if_true, hp, List.nil_append, Nat.add_sub_cancel]
            exact this
          · have := Trans.lenient _ _ k st hp hals (by simpa using h1) hb hpop he
            rw [if_neg he]
            simp only [hp, List.nil_append, Nat.add_sub_cancel]
            exact this
      · simp at h
  · simp at h

theorem step_emit {U : Uni} {s s' : St} {t : Tok} (h : step U s = .emit t s') : Trans s t s' := by
  unfold step at h
  split at h
  · rename_i t' p hp
    simp only [Step.emit.injEq] at h
    obtain ⟨rfl, rfl⟩ := h
    exact .pend _ _ hp
  · rename_i hp
    split at h
    · cases h
    · rename_i t' s1 hh
      simp only [Step.emit.injEq] at h
      obtain ⟨rfl, rfl⟩ := h
      exact handleLineStart_some hp hh
    · rename_i s1 hh
      obtain ⟨r, a, hg, rfl⟩ := handleLineStart_none hh
      unfold afterIndent at h
      split at h
      · cases h
      · rename_i r' nl hr
        exact scanMain_trans hp (hg.trans (gap_skipGap _ _ _ _ _ hr)) rfl h

theorem step_again {U : Uni} {s s' : St} (h : step U s = .again s') :
    s.pending = [] ∧ 0 < s.depth ∧ ∃ r, Gap s.rest ('\n' :: r) ∧ s' = { s with rest := r, als := true } := by
  unfold step at h
  split at h
  · cases h
  · rename_i hp
    split at h
    · cases h
    · cases h
    · rename_i s1 hh
      obtain ⟨r, a, hg, rfl⟩ := handleLineStart_none hh
      unfold afterIndent at h
      split at h
      · cases h
      · rename_i r' nl hr
        have hg2 := hg.trans (gap_skipGap _ _ _ _ _ hr)
        unfold scanMain at h
        cases r' with
        | nil =>
          simp only at h
          split at h <;> cases h
        | cons c r1 =>
          simp only at h
          split_ifs at h with h1 h2 h3 h4 h5
          · simp only [Step.again.injEq] at h
            subst h1
            refine ⟨hp, by omega, r1, hg2, ?_⟩
            rw [← h]
          all_goals
            first
              | (unfold emitRes at h; split at h <;> cases h)
              | (unfold scanOp scanSingle at h
                 repeat' split at h
                 all_goals cases h)

end Verif.Lexer
