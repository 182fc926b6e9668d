import Verif.Stl.Binary

/-!
# ASCII STL files (C95)
-/

namespace Verif.Stl

/-! ### Specification -/

/-- the word "facet" occurs in the text, in any case -/
def MentionsFacet (text : List Char) : Prop := "facet".toList <:+: text.map low

/-- a number is printed with characters the reader accepts -/
def Printable {K : Type} (fmt : K → List Char) (x : K) : Prop := fmt x ≠ [] ∧ ∀ c ∈ fmt x, isNumChar c = true

/-! ### Matching -/

theorem takeWhile_sep {p : Char → Bool} (l r : List Char) (hl : ∀ c ∈ l, p c = true) (c : Char) (hc : p c = false) :
    (l ++ c :: r).takeWhile p = l := by
  induction l with
  | nil => simp [List.takeWhile_cons, hc]
  | cons x l ih =>
    rw [List.cons_append, List.takeWhile_cons, if_pos (hl x (by simp)), ih (fun c h => hl c (by simp [h]))]

theorem dropWhile_sep {p : Char → Bool} (l r : List Char) (hl : ∀ c ∈ l, p c = true) (c : Char) (hc : p c = false) :
    (l ++ c :: r).dropWhile p = c :: r := by
  induction l with
  | nil => simp [List.dropWhile_cons, hc]
  | cons x l ih =>
    rw [List.cons_append, List.dropWhile_cons, if_pos (hl x (by simp)), ih (fun c h => hl c (by simp [h]))]

theorem match_lit (s : String) (is : List Item) (r : List Char) (hs : s.toList.map low = s.toList) :
    matchItems (.lit s :: is) (s.toList ++ r) = matchItems is r := by
  have : ∀ l : List Char, l.map low = l → matchLit l (l ++ r) = some r := by
    intro l
    induction l with
    | nil => intro _; rfl
    | cons c l ih =>
      intro h
      simp only [List.map_cons, List.cons.injEq] at h
      rw [List.cons_append, matchLit, if_pos h.1.symm, ih h.2]
  rw [matchItems, this _ hs]

theorem match_blanks (is : List Item) (b r : List Char) (c : Char) (hne : b ≠ []) (hb : ∀ c ∈ b, isBlank c = true)
    (hc : isBlank c = false) : matchItems (.blanks :: is) (b ++ c :: r) = matchItems is (c :: r) := by
  rw [matchItems, takeWhile_sep b r hb c hc, if_neg hne, dropWhile_sep b r hb c hc]

theorem match_number (is : List Item) (b r : List Char) (c : Char) (hne : b ≠ []) (hb : ∀ c ∈ b, isNumChar c = true)
    (hc : isNumChar c = false) :
    matchItems (.number :: is) (b ++ c :: r) = (matchItems is (c :: r)).map fun q => (b :: q.1, q.2) := by
  rw [matchItems, takeWhile_sep b r hb c hc, if_neg hne, dropWhile_sep b r hb c hc]
  cases matchItems is (c :: r) with
  | none => rfl
  | some q => rfl

theorem numChar_not_blank (c : Char) (h : isNumChar c = true) : isBlank c = false := by
  have key : ∀ n, 32 < n → n < 127 → (decide (n = 32) || (decide (9 ≤ n) && decide (n ≤ 13)) || (decide (28 ≤ n) && decide (n ≤ 31))) = false := by
    intro n h1 h2
    simp only [Bool.or_eq_false_iff, decide_eq_false_iff_not, Bool.and_eq_false_iff]
    omega
  have hr : 32 < c.toNat ∧ c.toNat < 127 := by
    simp only [isNumChar, Bool.or_eq_true, decide_eq_true_eq] at h
    rcases h with ((((rfl | rfl) | h) | rfl) | rfl) | rfl
    · decide
    · decide
    · simp only [Char.isDigit, Bool.and_eq_true, decide_eq_true_eq] at h
      have h1 : (48 : Nat) ≤ c.toNat := h.1
      have h2 : c.toNat ≤ (57 : Nat) := h.2
      omega
    · decide
    · decide
    · decide
  exact key _ hr.1 hr.2

/-- three numbers followed by blanks and something else -/
theorem match_numbers {K : Type} (fmt : K → List Char) (v : V3 K) (hx : Printable fmt v.x) (hy : Printable fmt v.y)
    (hz : Printable fmt v.z) (is : List Item) (b r : List Char) (c : Char) (hb : ∀ c ∈ b, isBlank c = true)
    (hc : isBlank c = false) :
    matchItems (numbersPattern ++ is) (numbers fmt v ++ (b ++ c :: r)) =
      (matchItems is (c :: r)).map fun q => (fmt v.x :: fmt v.y :: fmt v.z :: q.1, q.2) := by
  have step : ∀ (x : K) (hx : Printable fmt x) (is : List Item) (b r : List Char) (c : Char), b ≠ [] →
      (∀ c ∈ b, isBlank c = true) → isBlank c = false →
      matchItems (.number :: .blanks :: is) (fmt x ++ (b ++ c :: r)) =
        (matchItems is (c :: r)).map fun q => (fmt x :: q.1, q.2) := by
    intro x hx is b r c hne hb hc
    cases b with
    | nil => exact absurd rfl hne
    | cons b0 b =>
      have hb0 : isNumChar b0 = false := by
        by_contra h
        have := numChar_not_blank b0 (by simpa using h)
        rw [hb b0 (by simp)] at this
        cases this
      rw [List.cons_append, match_number _ _ _ _ hx.1 hx.2 hb0]
      have := match_blanks is (b0 :: b) r c hne hb hc
      rw [List.cons_append] at this
      rw [this]
  have head : ∀ (x : K), Printable fmt x → ∃ d l, fmt x = d :: l ∧ isBlank d = false := by
    intro x hx
    cases h : fmt x with
    | nil => exact absurd h hx.1
    | cons d l => exact ⟨d, l, rfl, numChar_not_blank d (hx.2 d (by rw [h]; simp))⟩
  obtain ⟨dy, ly, ey, hdy⟩ := head v.y hy
  obtain ⟨dz, lz, ez, hdz⟩ := head v.z hz
  unfold numbersPattern numbers
  simp only [List.cons_append, List.nil_append, List.append_assoc]
  rw [ey, List.cons_append, step v.x hx _ " ".toList _ dy (by decide) (by decide) hdy, ← List.cons_append, ← ey]
  rw [ez, List.cons_append, step v.y hy _ " ".toList _ dz (by decide) (by decide) hdz, ← List.cons_append, ← ez]
  have h3 := step v.z hz is ("\n".toList ++ b) r c (by simp) (by
    intro c hc
    rw [List.mem_append] at hc
    rcases hc with h | h
    · revert c; decide
    · exact hb c h) hc
  rw [List.append_assoc] at h3
  rw [h3]
  cases matchItems is (c :: r) <;> rfl

/-- all numbers of a triangle are printable -/
def AllPrintable {K : Type} (fmt : K → List Char) (t : Tri K) : Prop := ∀ x ∈ t.toList, Printable fmt x

theorem match_facet {K : Type} (fmt : K → List Char) (t : Tri K) (h : AllPrintable fmt t) (r : List Char) :
    ∃ body, facetText fmt t = ' ' :: ' ' :: 'f' :: body ∧
    matchItems facetPattern ('f' :: (body ++ r)) = some (t.toList.map fmt, '\n' :: r) := by
  have hp : ∀ x ∈ t.toList, Printable fmt x := h
  simp only [Tri.toList, V3.toList, List.cons_append, List.nil_append, List.mem_cons, List.not_mem_nil, or_false,
    forall_eq_or_imp, forall_eq] at hp
  obtain ⟨n1, n2, n3, a1, a2, a3, b1, b2, b3, c1, c2, c3⟩ := hp
  refine ⟨"acet normal ".toList ++ numbers fmt t.normal ++ "    outer loop\n".toList ++
    "      vertex ".toList ++ numbers fmt t.v0 ++ "      vertex ".toList ++ numbers fmt t.v1 ++
    "      vertex ".toList ++ numbers fmt t.v2 ++ "    endloop\n".toList ++ "  endfacet\n".toList, ?_, ?_⟩
  · unfold facetText
    rfl
  · have e : 'f' :: ("acet normal ".toList ++ numbers fmt t.normal ++ "    outer loop\n".toList ++
        "      vertex ".toList ++ numbers fmt t.v0 ++ "      vertex ".toList ++ numbers fmt t.v1 ++
        "      vertex ".toList ++ numbers fmt t.v2 ++ "    endloop\n".toList ++ "  endfacet\n".toList ++ r) =
      "facet".toList ++ (" ".toList ++ 'n' :: ("ormal".toList ++ (" ".toList ++ (numbers fmt t.normal ++ ("    ".toList ++
        'o' :: ("uter".toList ++ (" ".toList ++ 'l' :: ("oop".toList ++ ("\n      ".toList ++ 'v' :: ("ertex".toList ++ (" ".toList ++
        (numbers fmt t.v0 ++ ("      ".toList ++ 'v' :: ("ertex".toList ++ (" ".toList ++
        (numbers fmt t.v1 ++ ("      ".toList ++ 'v' :: ("ertex".toList ++ (" ".toList ++
        (numbers fmt t.v2 ++ ("    ".toList ++ 'e' :: ("ndloop".toList ++ ("\n  ".toList ++ 'e' :: ("ndfacet".toList ++
        '\n' :: r)))))))))))))))))))))))) := by
      simp [List.append_assoc]
    rw [e]
    have head : ∀ (v : V3 K) (s : List Char), Printable fmt v.x → ∃ d l, numbers fmt v ++ s = d :: l ∧ isBlank d = false := by
      intro v s hx
      unfold numbers
      cases h : fmt v.x with
      | nil => exact absurd h hx.1
      | cons d l => exact ⟨d, _, rfl, numChar_not_blank d (hx.2 d (by rw [h]; simp))⟩
    -- blanks before numbers
    have bn : ∀ (is : List Item) (v : V3 K) (s : List Char), Printable fmt v.x →
        matchItems (.blanks :: is) (" ".toList ++ (numbers fmt v ++ s)) = matchItems is (numbers fmt v ++ s) := by
      intro is v s hx
      obtain ⟨d, l, e, hd⟩ := head v s hx
      rw [e, match_blanks is _ _ d (by decide) (by decide) hd]
    -- literals
    have lit : ∀ (s : String) (c : Char) (s' : String) (is : List Item) (q : List Char), s.toList = c :: s'.toList →
        s.toList.map low = s.toList → matchItems (.lit s :: is) (c :: (s'.toList ++ q)) = matchItems is q := by
      intro s c s' is q h1 h2
      rw [← List.cons_append, ← h1, match_lit s is q h2]
    unfold facetPattern
    simp only [List.append_assoc, List.cons_append, List.nil_append]
    rw [match_lit "facet" _ _ (by decide +kernel)]
    rw [match_blanks _ " ".toList _ 'n' (by decide) (by decide) (by decide)]
    rw [lit "normal" 'n' "ormal" _ _ (by decide +kernel) (by decide +kernel)]
    rw [bn _ _ _ n1]
    rw [match_numbers fmt t.normal n1 n2 n3 _ _ _ 'o' (by decide) (by decide)]
    rw [lit "outer" 'o' "uter" _ _ (by decide +kernel) (by decide +kernel)]
    rw [match_blanks _ " ".toList _ 'l' (by decide) (by decide) (by decide)]
    rw [lit "loop" 'l' "oop" _ _ (by decide +kernel) (by decide +kernel)]
    rw [match_blanks _ "\n      ".toList _ 'v' (by decide) (by decide) (by decide)]
    rw [lit "vertex" 'v' "ertex" _ _ (by decide +kernel) (by decide +kernel), bn _ _ _ a1]
    rw [match_numbers fmt t.v0 a1 a2 a3 _ _ _ 'v' (by decide) (by decide)]
    rw [lit "vertex" 'v' "ertex" _ _ (by decide +kernel) (by decide +kernel), bn _ _ _ b1]
    rw [match_numbers fmt t.v1 b1 b2 b3 _ _ _ 'v' (by decide) (by decide)]
    rw [lit "vertex" 'v' "ertex" _ _ (by decide +kernel) (by decide +kernel), bn _ _ _ c1]
    rw [match_numbers fmt t.v2 c1 c2 c3 _ _ _ 'e' (by decide) (by decide)]
    rw [lit "endloop" 'e' "ndloop" _ _ (by decide +kernel) (by decide +kernel)]
    rw [match_blanks _ "\n  ".toList _ 'e' (by decide) (by decide) (by decide)]
    rw [lit "endfacet" 'e' "ndfacet" _ _ (by decide +kernel) (by decide +kernel)]
    rfl

/-! ### Scanning -/

/-- a position where "facet" does not begin is skipped -/
theorem no_match (c : Char) (cs : List Char) (h : matchLit "facet".toList (c :: cs) = none) :
    matchItems facetPattern (c :: cs) = none := by
  unfold facetPattern
  simp only [List.append_assoc, List.cons_append, List.nil_append]
  rw [matchItems, h]

theorem scan_skip (n : Nat) (c : Char) (cs : List Char) (h : matchLit "facet".toList (c :: cs) = none) :
    findAll (n + 1) (c :: cs) = findAll n cs := by
  rw [findAll, no_match c cs h]

theorem not_f (c : Char) (cs : List Char) (h : low c ≠ 'f') : matchLit "facet".toList (c :: cs) = none := by
  have : "facet".toList = 'f' :: "acet".toList := by decide +kernel
  rw [this, matchLit, if_neg (fun e => h e.symm)]

/-- a line that does not mention "facet" is skipped -/
theorem scan_line (l r : List Char) (n : Nat) (h : ¬ MentionsFacet l) :
    findAll (l.length + 1 + n) (l ++ '\n' :: r) = findAll n r := by
  induction l with
  | nil =>
    rw [List.nil_append, List.length_nil, show 0 + 1 + n = n + 1 by omega]
    exact scan_skip n '\n' r (not_f _ _ (by decide))
  | cons c l ih =>
    rw [List.cons_append, List.length_cons, show l.length + 1 + 1 + n = (l.length + 1 + n) + 1 by omega]
    rw [scan_skip]
    · exact ih (fun h' => h (h'.trans (List.suffix_cons _ _).isInfix))
    · by_contra hm
      apply h
      have key : ∀ (s q : List Char), '\n' ∉ s → (matchLit s (q ++ '\n' :: r)) ≠ none → s <+: q.map low := by
        intro s
        induction s with
        | nil => intro q _ _; exact List.nil_prefix
        | cons x s ih2 =>
          intro q hs hq
          cases q with
          | nil =>
            exfalso
            rw [List.nil_append, matchLit] at hq
            by_cases hx : x = low '\n'
            · apply hs
              rw [hx]
              have : low '\n' = '\n' := by decide
              rw [this]; simp
            · rw [if_neg hx] at hq; exact hq rfl
          | cons y q =>
            rw [List.cons_append, matchLit] at hq
            by_cases hx : x = low y
            · rw [if_pos hx] at hq
              rw [List.map_cons, hx, List.cons_prefix_cons]
              exact ⟨rfl, ih2 q (fun h => hs (by simp [h])) hq⟩
            · rw [if_neg hx] at hq; exact absurd rfl hq
      exact (key "facet".toList (c :: l) (by decide) hm).isInfix

theorem scan_facets {K : Type} (fmt : K → List Char) (ts : List (Tri K)) (h : ∀ t ∈ ts, AllPrintable fmt t) (r : List Char)
    (n : Nat) (hn : (ts.map (facetText fmt)).flatten.length ≤ n) :
    ∃ m, findAll n ((ts.map (facetText fmt)).flatten ++ r) = ts.map (fun t => t.toList.map fmt) ++ findAll m r ∧
      n ≤ m + (ts.map (facetText fmt)).flatten.length ∧ m ≤ n := by
  induction ts generalizing n with
  | nil => exact ⟨n, rfl, by simp, le_refl _⟩
  | cons t ts ih =>
    simp only [List.map_cons, List.flatten_cons, List.append_assoc]
    obtain ⟨body, hb, hm⟩ := match_facet fmt t (h t (by simp)) ((ts.map (facetText fmt)).flatten ++ r)
    simp only [List.map_cons, List.flatten_cons, List.length_append] at hn
    have hlen : (facetText fmt t).length = body.length + 3 := by rw [hb]; simp
    rw [hb]
    obtain ⟨k, rfl⟩ : ∃ k, n = k + 4 := ⟨n - 4, by
      have : 4 ≤ (facetText fmt t).length := by
        unfold facetText
        simp only [List.length_append]
        have : ("  facet normal ".toList).length = 15 := by decide +kernel
        omega
      omega⟩
    have e1 : findAll (k + 4) (' ' :: ' ' :: 'f' :: body ++ ((ts.map (facetText fmt)).flatten ++ r)) =
        t.toList.map fmt :: findAll k ((ts.map (facetText fmt)).flatten ++ r) := by
      rw [List.cons_append, scan_skip _ _ _ (not_f _ _ (by decide)), List.cons_append,
        scan_skip _ _ _ (not_f _ _ (by decide)), List.cons_append, findAll, hm]
      simp only
      rw [scan_skip _ _ _ (not_f _ _ (by decide))]
    rw [e1]
    obtain ⟨m, h1, h2, h3⟩ := ih (fun t ht => h t (by simp [ht])) k (by
      have : 4 ≤ (facetText fmt t).length := by
        unfold facetText
        simp only [List.length_append]
        have : ("  facet normal ".toList).length = 15 := by decide +kernel
        omega
      omega)
    have hl4 : 4 ≤ body.length + 3 := by
      rw [← hlen]
      unfold facetText
      simp only [List.length_append]
      have : ("  facet normal ".toList).length = 15 := by decide +kernel
      omega
    refine ⟨m, by rw [h1]; rfl, ?_, by omega⟩
    rw [List.length_append, ← hb, hlen]
    omega

theorem scan_nothing (l : List Char) (n : Nat) (h : ¬ MentionsFacet l) : findAll n l = [] := by
  induction l generalizing n with
  | nil => cases n <;> rfl
  | cons c l ih =>
    cases n with
    | zero => rfl
    | succ n =>
      rw [scan_skip]
      · exact ih n (fun h' => h (h'.trans (List.suffix_cons _ _).isInfix))
      · by_contra hm
        apply h
        have key : ∀ (s q : List Char), matchLit s q ≠ none → s <+: q.map low := by
          intro s
          induction s with
          | nil => intro q _; exact List.nil_prefix
          | cons x s ih2 =>
            intro q hq
            cases q with
            | nil => exact absurd rfl hq
            | cons y q =>
              rw [matchLit] at hq
              by_cases hx : x = low y
              · rw [if_pos hx] at hq
                rw [List.map_cons, hx, List.cons_prefix_cons]
                exact ⟨rfl, ih2 q hq⟩
              · rw [if_neg hx] at hq; exact absurd rfl hq
        exact (key _ _ hm).isInfix

theorem mentions_cons (c : Char) (l : List Char) (hc : low c ≠ 'f') (h : MentionsFacet (c :: l)) : MentionsFacet l := by
  unfold MentionsFacet at h ⊢
  rw [List.map_cons, List.infix_cons_iff] at h
  rcases h with h | h
  · have : "facet".toList = 'f' :: "acet".toList := by decide +kernel
    rw [this, List.cons_prefix_cons] at h
    exact absurd h.1.symm hc
  · exact h

theorem mentions_append (s l : List Char) (hs : ∀ c ∈ s, low c ≠ 'f') (h : MentionsFacet (s ++ l)) : MentionsFacet l := by
  induction s with
  | nil => exact h
  | cons c s ih => exact ih (fun c hc => hs c (by simp [hc])) (mentions_cons c _ (hs c (by simp)) h)

theorem mentions_end (l : List Char) (c : Char) (hc : low c ∉ "facet".toList) (h : MentionsFacet (l ++ [c])) : MentionsFacet l := by
  unfold MentionsFacet at h ⊢
  rw [List.map_append, List.map_cons, List.map_nil] at h
  obtain ⟨a, b, hab⟩ := h
  rcases List.eq_nil_or_concat b with rfl | ⟨b', x, rfl⟩
  · exfalso
    have : "facet".toList = "face".toList ++ ['t'] := by decide +kernel
    rw [List.append_nil, this, ← List.append_assoc] at hab
    have := List.append_inj_right' hab rfl
    apply hc
    rw [← List.cons.inj this |>.1]
    decide
  · rw [List.concat_eq_append, ← List.append_assoc] at hab
    exact ⟨a, b', List.append_inj_left' hab rfl⟩

/-! ### C95 -/

theorem decode_encodeAll (l : List Char) (h : ∀ c ∈ l, c.toNat < 128) : decode (l.map encodeChar) = l := by
  unfold decode
  rw [List.map_map]
  conv_rhs => rw [← List.map_id l]
  apply List.map_congr_left
  intro c hc
  obtain ⟨h1, h2⟩ := decode_encode c
  simp only [Function.comp, h1, if_true, h2, shown, h c hc, id]

theorem readAll_groups {K : Type} (fmt : K → List Char) (parse : List Char → Option K) (rd : K → K) (ts : List (Tri K))
    (h : ∀ t ∈ ts, ∀ x ∈ t.toList, parse (fmt x) = some (rd x)) :
    readAllGroups parse (ts.map fun t => t.toList.map fmt) = .ok (ts.map (Tri.map rd)) := by
  induction ts with
  | nil => rfl
  | cons t ts ih =>
    have ht := h t (by simp)
    have e : readGroups parse (t.toList.map fmt) = .ok (t.map rd) := by
      unfold readGroups
      have e1 : (t.toList.map fmt).map parse = t.toList.map (fun x => some (rd x)) := by
        rw [List.map_map]
        exact List.map_congr_left fun x hx => ht x hx
      rw [e1]
      rfl
    rw [List.map_cons, readAllGroups, e]
    simp only
    rw [ih (fun t' ht' => h t' (by simp [ht']))]
    rfl

/-- characters the writer itself produces -/
theorem text_chars {K : Type} (fmt : K → List Char) (name : List Char) (ts : List (Tri K)) (P : Char → Prop)
    (hlit : ∀ c ∈ "solid facet normal outer loop vertex endloop endfacet endsolid\n".toList, P c) (hname : ∀ c ∈ name, P c)
    (hnum : ∀ t ∈ ts, ∀ x ∈ t.toList, ∀ c ∈ fmt x, P c) : ∀ c ∈ asciiText fmt name ts, P c := by
  have lit : ∀ s : String, (∀ c ∈ s.toList, c ∈ "solid facet normal outer loop vertex endloop endfacet endsolid\n".toList) →
      ∀ c ∈ s.toList, P c := fun s h c hc => hlit c (h c hc)
  have nums : ∀ v : V3 K, (∀ x ∈ v.toList, ∀ c ∈ fmt x, P c) → ∀ c ∈ numbers fmt v, P c := by
    intro v h c hc
    unfold numbers at hc
    simp only [List.mem_append] at hc
    simp only [V3.toList, List.mem_cons, List.not_mem_nil, or_false, forall_eq_or_imp, forall_eq] at h
    rcases hc with ((((hc | hc) | hc) | hc) | hc) | hc
    · exact h.1 c hc
    · exact lit " " (by decide +kernel) c hc
    · exact h.2.1 c hc
    · exact lit " " (by decide +kernel) c hc
    · exact h.2.2 c hc
    · exact lit "\n" (by decide +kernel) c hc
  intro c hc
  unfold asciiText at hc
  simp only [List.mem_append] at hc
  rcases hc with (((((hc | hc) | hc) | hc) | hc) | hc) | hc
  · exact lit "solid " (by decide +kernel) c hc
  · exact hname c hc
  · exact lit "\n" (by decide +kernel) c hc
  · rw [List.mem_flatten] at hc
    obtain ⟨l, hl, hc⟩ := hc
    rw [List.mem_map] at hl
    obtain ⟨t, ht, rfl⟩ := hl
    have hx := hnum t ht
    have sub : ∀ v : V3 K, (∀ x ∈ v.toList, x ∈ t.toList) → ∀ c ∈ numbers fmt v, P c :=
      fun v h => nums v (fun x hxv => hx x (h x hxv))
    have s0 := sub t.normal (by intro x h; simp only [Tri.toList, List.mem_append]; tauto)
    have s1 := sub t.v0 (by intro x h; simp only [Tri.toList, List.mem_append]; tauto)
    have s2 := sub t.v1 (by intro x h; simp only [Tri.toList, List.mem_append]; tauto)
    have s3 := sub t.v2 (by intro x h; simp only [Tri.toList, List.mem_append]; tauto)
    unfold facetText at hc
    simp only [List.mem_append] at hc
    rcases hc with (((((((((hc | hc) | hc) | hc) | hc) | hc) | hc) | hc) | hc) | hc) | hc
    · exact lit "  facet normal " (by decide +kernel) c hc
    · exact s0 c hc
    · exact lit "    outer loop\n" (by decide +kernel) c hc
    · exact lit "      vertex " (by decide +kernel) c hc
    · exact s1 c hc
    · exact lit "      vertex " (by decide +kernel) c hc
    · exact s2 c hc
    · exact lit "      vertex " (by decide +kernel) c hc
    · exact s3 c hc
    · exact lit "    endloop\n" (by decide +kernel) c hc
    · exact lit "  endfacet\n" (by decide +kernel) c hc
  · exact lit "endsolid " (by decide +kernel) c hc
  · exact hname c hc
  · exact lit "\n" (by decide +kernel) c hc

theorem numChar_range (c : Char) (h : isNumChar c = true) : 10 ≤ c.toNat := by
  simp only [isNumChar, Bool.or_eq_true, decide_eq_true_eq] at h
  rcases h with ((((rfl | rfl) | h) | rfl) | rfl) | rfl
  · decide
  · decide
  · simp only [Char.isDigit, Bool.and_eq_true, decide_eq_true_eq] at h
    have h1 : (48 : Nat) ≤ c.toNat := h.1
    omega
  · decide
  · decide
  · decide

/-- a text that begins with "solid" and has no control characters is never taken for a binary file, below 8 GB -/
theorem text_not_binary (l : List Char) (h128 : ∀ c ∈ l, c.toNat < 128) (h10 : ∀ c ∈ l, 10 ≤ c.toNat)
    (hs : "solid".toList <+: l) (hsize : l.length < 8421504584) : isBinary (l.map encodeChar) = false := by
  unfold isBinary
  by_cases h84 : (l.map encodeChar).length < 84
  · rw [if_pos h84]
  · rw [if_neg h84]
    have hsh : solidHeader (l.map encodeChar) = true := by
      unfold solidHeader
      simp only [List.isPrefixOf_iff_prefix]
      have e : (((l.map encodeChar).take 80).filter fun b => b.val < 128).map (fun b => Char.ofNat b.val) = l.take 80 := by
        rw [← List.map_take]
        have hl : ∀ c ∈ l.take 80, c.toNat < 128 := fun c hc => h128 c (List.mem_of_mem_take hc)
        revert hl
        induction l.take 80 with
        | nil => intro _; rfl
        | cons c cs ih =>
          intro hl
          obtain ⟨h1, h2⟩ := decode_encode c
          simp only [List.map_cons, List.filter_cons, h1, decide_true, if_true, ih (fun c hc => hl c (by simp [hc])), h2,
            shown, hl c (by simp)]
      rw [e]
      obtain ⟨r, rfl⟩ := hs
      have e2 : "solid".toList = ['s', 'o', 'l', 'i', 'd'] := by decide +kernel
      rw [e2]
      refine ⟨(r.take 75).map low, ?_⟩
      simp only [List.cons_append, List.nil_append, List.take_succ_cons]
      rw [List.dropWhile_cons, if_neg (by decide)]
      simp only [List.map_cons]
      have : ∀ c ∈ ['s', 'o', 'l', 'i', 'd'], low c = c := by decide
      rw [this 's' (by simp), this 'o' (by simp), this 'l' (by simp), this 'i' (by simp), this 'd' (by simp)]
    rw [if_pos hsh, if_neg]
    intro hlen
    have hcount : 168430090 ≤ countField (l.map encodeChar) := by
      unfold countField
      have h4 : (((l.map encodeChar).drop 80).take 4).length = 4 := by
        rw [List.length_take, List.length_drop]
        omega
      have hb : ∀ b ∈ ((l.map encodeChar).drop 80).take 4, 10 ≤ b.val := by
        intro b hb
        have := List.mem_of_mem_drop (List.mem_of_mem_take hb)
        rw [List.mem_map] at this
        obtain ⟨c, hc, rfl⟩ := this
        unfold encodeChar
        rw [dif_pos (h128 c hc)]
        exact h10 c hc
      match ((l.map encodeChar).drop 80).take 4, h4, hb with
      | [a, b, c, d], _, hb =>
        simp only [List.mem_cons, List.not_mem_nil, or_false, forall_eq_or_imp, forall_eq] at hb
        simp only [un4]
        omega
    rw [List.length_map] at hlen
    omega

/-- C95: writing triangles as ASCII STL and reading the file back gives the same triangles in the same order, with each
number as it reads after printing. This needs a name that does not mention "facet" and has no control characters, numbers
that print with digits, signs, points and exponents only (not `nan` or `inf`), and a file of less than 8 GB. -/
theorem C95_round_trip_partial {K : Type} (fmt : K → List Char) (unpack : Word → K) (parse : List Char → Option K) (rd : K → K)
    (name : List Char) (ts : List (Tri K)) (data : List Byte) (h : writeAscii fmt name ts = .ok data)
    (hfmt : ∀ t ∈ ts, ∀ x ∈ t.toList, Printable fmt x ∧ parse (fmt x) = some (rd x))
    (hname : ¬ MentionsFacet name) (hctl : ∀ c ∈ name, 10 ≤ c.toNat) (hsize : data.length < 8421504584) :
    readTriangles unpack parse data = .ok (ts.map (Tri.map rd)) := by
  unfold writeAscii at h
  by_cases hall : (asciiText fmt name ts).all (fun c => c.toNat < 128) = true
  · rw [if_pos hall] at h
    cases h
    have h128 : ∀ c ∈ asciiText fmt name ts, c.toNat < 128 := by simpa using hall
    have h10 : ∀ c ∈ asciiText fmt name ts, 10 ≤ c.toNat := by
      apply text_chars fmt name ts (fun c => 10 ≤ c.toNat) (by decide +kernel) hctl
      intro t ht x hx c hc
      exact numChar_range c ((hfmt t ht x hx).1.2 c hc)
    have hs : "solid".toList <+: asciiText fmt name ts := by
      unfold asciiText
      simp only [List.append_assoc]
      have : "solid ".toList = "solid".toList ++ [' '] := by decide +kernel
      rw [this, List.append_assoc]
      exact List.prefix_append _ _
    rw [List.length_map] at hsize
    have hnb := text_not_binary _ h128 h10 hs hsize
    unfold readTriangles
    rw [hnb, if_neg (by decide), decode_encodeAll _ h128]
    unfold parseAscii
    have hfind : findAll (asciiText fmt name ts).length (asciiText fmt name ts) = ts.map (fun t => t.toList.map fmt) := by
      have hsplit : asciiText fmt name ts = ("solid ".toList ++ name) ++ '\n' :: ((ts.map (facetText fmt)).flatten ++
          ("endsolid ".toList ++ name ++ "\n".toList)) := by
        unfold asciiText
        have : "\n".toList = ['\n'] := by decide +kernel
        simp only [List.append_assoc, this, List.cons_append, List.nil_append]
      have hn1 : ¬ MentionsFacet ("solid ".toList ++ name) := fun h => hname (mentions_append _ _ (by decide +kernel) h)
      have hn2 : ¬ MentionsFacet ("endsolid ".toList ++ name ++ "\n".toList) := by
        intro h
        have : "\n".toList = ['\n'] := by decide +kernel
        rw [this] at h
        exact hname (mentions_append _ _ (by decide +kernel) (mentions_end _ _ (by decide +kernel) h))
      have hl : (asciiText fmt name ts).length = ("solid ".toList ++ name).length + 1 +
          ((ts.map (facetText fmt)).flatten.length + ("endsolid ".toList ++ name ++ "\n".toList).length) := by
        rw [hsplit, List.length_append (as := "solid ".toList ++ name), List.length_cons,
          List.length_append (as := (ts.map (facetText fmt)).flatten)]
        omega
      rw [hl, hsplit, scan_line _ _ _ hn1]
      obtain ⟨m, h1, _, _⟩ := scan_facets fmt ts (fun t ht x hx => (hfmt t ht x hx).1)
        ("endsolid ".toList ++ name ++ "\n".toList)
        ((ts.map (facetText fmt)).flatten.length + ("endsolid ".toList ++ name ++ "\n".toList).length) (by omega)
      rw [h1, scan_nothing _ _ hn2, List.append_nil]
    rw [hfind]
    exact readAll_groups fmt parse rd ts (fun t ht x hx => (hfmt t ht x hx).2)
  · rw [if_neg hall] at h; cases h

/-- numbers for the examples: a digit or not a number -/
def demoFmt : Option (Fin 10) → List Char
  | some d => [Char.ofNat (48 + d.val), '.', '0', 'e', '+', '0', '0']
  | none => "nan".toList

/-- reading them -/
def demoParse : List Char → Option (Option (Fin 10))
  | c :: _ => if h : 48 ≤ c.toNat ∧ c.toNat < 58 then some (some ⟨c.toNat - 48, by omega⟩) else none
  | [] => none

def demoTri : Tri (Option (Fin 10)) :=
  ⟨⟨some 0, some 0, some 1⟩, ⟨some 0, some 0, some 0⟩, ⟨some 5, some 0, some 0⟩, ⟨some 0, some 5, some 7⟩⟩

/-- write and read back -/
def demoRound (name : List Char) (ts : List (Tri (Option (Fin 10)))) : Option (List (Tri (Option (Fin 10)))) :=
  match writeAscii demoFmt name ts with
  | .ok data => (readTriangles (fun _ => none) demoParse data).toOption
  | .error _ => none

/-- C95, example: two facets survive, and the hypotheses hold. -/
example : demoRound "my part".toList [demoTri, demoTri] = some [demoTri, demoTri] ∧
    (∀ x ∈ demoTri.toList, Printable demoFmt x ∧ demoParse (demoFmt x) = some x) ∧ ¬ MentionsFacet "my part".toList := by
  refine ⟨by decide +kernel, ?_, by unfold MentionsFacet; decide +kernel⟩
  unfold Printable
  decide +kernel

/-- C95 (violated): a facet with a coordinate that is not a number disappears without an error. -/
theorem C95_nan_facet_lost :
    demoRound "my part".toList [demoTri, { demoTri with v1 := ⟨some 1, none, some 1⟩ }] = some [demoTri] := by decide +kernel

/-- C95 (violated): a name containing the text of a facet adds a triangle (twice, once for each time the name is written). -/
theorem C95_name_adds_facet :
    demoRound ("x\n".toList ++ facetText demoFmt demoTri) [] = some [demoTri, demoTri] := by decide +kernel

end Verif.Stl
