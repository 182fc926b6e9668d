import Verif.Parser.Sound2

/-! The recursion bound is always enough: the parser terminates on every token list. -/

namespace Verif.Parser

open Verif.Lexer

/-- the run did not hit the recursion bound -/
def NF {α : Type} (x : Except PErr α) : Prop := x ≠ .error .fuel

theorem NF.bind {α β : Type} {x : Except PErr α} {f : α → Except PErr β} (h : NF x)
    (h' : ∀ a, x = .ok a → NF (f a)) : NF (x >>= f) := by
  cases x with
  | error e => intro he; apply h; simpa [Bind.bind, Except.bind] using he
  | ok a => exact h' a rfl

theorem NF.ok {α : Type} (a : α) : NF (pure a : Except PErr α) := by intro h; cases h
theorem NF.syn {α : Type} : NF (.error .syn : Except PErr α) := by intro h; cases h

theorem NF.ite {α : Type} {c : Prop} [Decidable c] {x y : Except PErr α} (h : c → NF x) (h' : ¬ c → NF y) :
    NF (if c then x else y) := by
  split
  · exact h ‹_›
  · exact h' ‹_›

theorem NF.consume {k : String} {s : List Tok} : NF (consume k s) := by
  unfold Parser.consume
  exact NF.ite (fun _ h => by cases h) (fun _ => NF.syn)

theorem NF.term {s : List Tok} : NF (terminator s) := by
  unfold terminator
  repeat' (first | exact NF.syn | (intro h; cases h; done) | apply NF.ite | intro _)

theorem NF.pat {s : List Tok} : NF (pattern s) := by
  unfold pattern
  repeat' (first | exact NF.syn | (intro h; cases h; done) | apply NF.ite | intro _)

/-- how much a method consumes -/
def LenRel : Sym → List Tok → List Tok → Prop
  | .clauses, r, t | .conds, r, t | .elifs, r, t | .arms, r, t | .emitMeta, r, t => r.length ≤ t.length
  | .stmts _, r, t => r.length ≤ t.length
  | .binLoop _ _, _, _ | .postLoop _, _, _ => True
  | _, r, t => r.length < t.length

theorem len_of {n : Nat} {s : Sym} {t : List Tok} {p : Val s × List Tok} (h : parse n s t = .ok p) :
    LenRel s p.2 t := by
  obtain ⟨v, r⟩ := p
  have hp := sound n s t v r h
  have aux : ∀ w u, t = w ++ r → D s v u w → (Empty s v → False) → r.length < t.length := by
    intro w u ht hd he
    rcases first_lemma hd with ⟨-, hx⟩ | ⟨a, x, rfl, -⟩
    · exact (he hx).elim
    · rw [ht]; simp only [List.length_append, List.length_cons]; omega
  cases s <;> first
    | trivial
    | (obtain ⟨w, u, rfl, -, -⟩ := hp; simp [LenRel]; done)
    | (obtain ⟨w, u, ht, hd, -⟩ := hp; exact aux w u ht hd (fun h => h))

theorem adv_le (s : List Tok) : (adv s).length ≤ s.length := by
  unfold adv
  split
  · exact Nat.le_refl _
  · simp

theorem adv_lt {s : List Tok} {k : String} (h : cur s = k) (hk : k ≠ "EOF") : (adv s).length < s.length := by
  obtain ⟨a, r, rfl, -, ha, -⟩ := cur_cons h hk
  rw [ha]; simp

theorem consume_lt {k : String} {s : List Tok} {p : TVal × List Tok} (h : consume k s = .ok p) (hk : k ≠ "EOF") :
    p.2.length < s.length := by
  obtain ⟨a, rfl, -, -⟩ := consume_ok h hk
  simp

theorem skip_le (s : List Tok) : (skipNl s).length ≤ s.length := by
  obtain ⟨ns, hs, -⟩ := skipNl_split s
  conv => rhs; rw [hs]
  simp

theorem term_le {s s' : List Tok} (h : terminator s = .ok s') : s'.length ≤ s.length := by
  obtain ⟨b, we, rfl, -, -⟩ := terminator_ok h
  simp

/-- order in which methods call each other without reading a token -/
def rank : Sym → Nat
  | .prim => 1 | .post => 2 | .unary => 3 | .bin _ => 4 | .expr => 5 | .item _ => 6 | .ifParts => 6 | .stmt => 6
  | .seq _ => 7 | .stmts _ => 7 | _ => 0

abbrev measure (s : Sym) (t : List Tok) : Nat := rank s + 12 * t.length

/-- induction hypothesis -/
abbrev TH (n : Nat) : Prop := ∀ s t, measure s t < n → NF (parse n s t)

variable {n : Nat}

/-- a call to another method -/
macro "call" h:term : tactic => `(tactic| (apply $h; dsimp only [measure, rank, LenRel] at *; omega))

theorem term_step (ih : TH n) (s : Sym) (t : List Tok) (hm : measure s t < n + 1) : NF (step (parse n) s t) := by
  cases s <;> dsimp only [step]
  case ty =>
    refine NF.bind ?_ fun _ _ => NF.ok _
    refine NF.ite (fun hn => ?_) fun _ => NF.syn
    have h0 := adv_lt (s := t) rfl (isName_ne_eof hn)
    have h1 := adv_le (adv t)
    refine NF.ite (fun _ => ?_) fun _ => NF.ite (fun _ => ?_) fun _ => NF.ok _
    all_goals
      refine NF.bind (by call ih) fun p hp => ?_
      have h2 := len_of hp
      refine NF.bind (by call ih) fun _ _ => NF.ok _
  case tyTail c =>
    refine NF.ite (fun hn => ?_) fun _ => NF.bind NF.consume fun _ _ => NF.ok _
    have h0 := adv_lt hn (by decide)
    refine NF.bind (by call ih) fun p hp => ?_
    have h2 := len_of hp
    exact NF.bind (by call ih) fun _ _ => NF.ok _
  case expr =>
    refine NF.bind (by call ih) fun p hp => ?_
    have h1 := len_of hp
    refine NF.ite (fun hif => ?_) fun _ => NF.ok _
    have h2 := adv_lt hif (by decide)
    refine NF.bind (by call ih) fun q hq => ?_
    have h3 := len_of hq
    refine NF.ite (fun hif => ?_) fun _ => NF.ok _
    have h4 := adv_lt hif (by decide)
    exact NF.bind (by call ih) fun _ _ => NF.ok _
  case bin m =>
    refine NF.bind (by call ih) fun p hp => ?_
    have h1 := len_of hp
    call ih
  case binLoop m l =>
    unfold stepBinLoop
    split
    · exact NF.ok _
    · rename_i p hp
      refine NF.ite (fun _ => NF.ok _) fun _ => ?_
      have h0 := adv_lt (s := t) rfl (prec_ne_eof hp)
      refine NF.bind (by call ih) fun p hp => ?_
      have h1 := len_of hp
      call ih
  case unary =>
    refine NF.ite (fun hk => ?_) fun _ => by call ih
    have h0 := adv_lt (s := t) rfl (by rcases hk with hk | hk <;> rw [hk] <;> decide)
    exact NF.bind (by call ih) fun _ _ => NF.ok _
  case post =>
    refine NF.bind (by call ih) fun p hp => ?_
    have h1 := len_of hp
    call ih
  case postLoop e =>
    refine NF.ite (fun hk => ?_) fun _ => NF.ite (fun hk => ?_) fun _ => NF.ite (fun hk => ?_) fun _ => NF.ok _
    all_goals have h0 := adv_lt hk (by decide)
    · refine NF.bind (by call ih) fun p hp => ?_
      have h1 := len_of hp
      call ih
    · refine NF.bind NF.consume fun p hp => ?_
      have h1 := consume_lt hp (by decide)
      refine NF.ite (fun hk => ?_) fun _ => by call ih
      have h2 := adv_lt hk (by decide)
      refine NF.bind (by call ih) fun p hp => ?_
      have h3 := len_of hp
      call ih
    · refine NF.bind (by call ih) fun p hp => ?_
      have h1 := len_of hp
      refine NF.bind NF.consume fun q hq => ?_
      have h2 := consume_lt hq (by decide)
      call ih
  case prim =>
    refine NF.ite (fun _ => NF.ok _) fun _ => NF.ite (fun _ => NF.ok _) fun _ => NF.ite (fun hk => ?_) fun _ =>
      NF.ite (fun hk => ?_) fun _ => NF.ite (fun hk => ?_) fun _ => NF.ite (fun hk => ?_) fun _ =>
      NF.ite (fun hk => ?_) fun _ => NF.syn
    all_goals have h0 := adv_lt hk (by decide)
    · have h1 := adv_le (adv t)
      have h2 := adv_le (adv (adv t))
      unfold stepGroup
      refine NF.ite (fun _ => NF.ite (fun _ => NF.bind (by call ih) fun _ _ => NF.ok _) fun _ => NF.syn) fun _ => ?_
      split
      · rename_i ps s1 hl
        obtain ⟨w, c, a, hs, -, -, -⟩ := lambdaHead_spec hl
        have h3 : s1.length ≤ (adv t).length := by rw [hs]; simp; omega
        exact NF.bind (by call ih) fun _ _ => NF.ok _
      · refine NF.bind (by call ih) fun p hp => ?_
        exact NF.bind NF.consume fun _ _ => NF.ok _
    · refine NF.ite (fun _ => NF.ok _) fun _ => ?_
      refine NF.bind (by call ih) fun p hp => ?_
      have h1 := len_of hp
      have h2 := adv_le p.2
      refine NF.ite (fun _ => ?_) fun _ => NF.ite (fun _ => ?_) fun _ => ?_
      · exact NF.bind (by call ih) fun _ _ => NF.bind NF.consume fun _ _ => NF.ok _
      · exact NF.bind (by call ih) fun _ _ => NF.bind NF.consume fun _ _ => NF.ok _
      · exact NF.bind (by call ih) fun _ _ => NF.ok _
    · exact NF.bind (by call ih) fun _ _ => NF.ok _
    · exact NF.bind (by call ih) fun _ _ => NF.ok _
    · refine NF.bind (by call ih) fun p1 hp1 => NF.bind NF.consume fun p2 hp2 => NF.bind NF.consume fun p3 hp3 =>
        NF.bind NF.consume fun p4 hp4 => ?_
      have h1 := len_of hp1
      have h2 := consume_lt hp2 (by decide)
      have h3 := consume_lt hp3 (by decide)
      have h4 := consume_lt hp4 (by decide)
      exact NF.bind (by call ih) fun _ _ => NF.bind NF.consume fun _ _ => NF.ok _
  case item k =>
    have h0 := adv_le t
    have h1 := adv_le (adv t)
    cases k with
    | args =>
      refine NF.ite (fun _ => ?_) fun _ => ?_
      · exact NF.bind (by call ih) fun _ _ => NF.ok _
      · exact NF.bind (by call ih) fun _ _ => NF.ok _
    | elems => exact NF.bind (by call ih) fun _ _ => NF.ok _
    | entries =>
      refine NF.ite (fun _ => NF.bind NF.consume fun p hp => ?_) fun _ => NF.syn
      have h2 := consume_lt hp (by decide)
      exact NF.bind (by call ih) fun _ _ => NF.ok _
  case seq k =>
    refine NF.ite (fun _ => NF.ok _) fun _ => NF.bind (by call ih) fun p hp => ?_
    have h1 := len_of hp
    exact NF.bind (by call ih) fun _ _ => NF.ok _
  case seqTail k =>
    refine NF.ite (fun hk => ?_) fun _ => NF.bind NF.consume fun _ _ => NF.ok _
    have h0 := adv_lt hk (by decide)
    refine NF.ite (fun _ => NF.ok _) fun _ => NF.bind (by call ih) fun p hp => ?_
    have h1 := len_of hp
    exact NF.bind (by call ih) fun _ _ => NF.ok _
  case clauses =>
    refine NF.ite (fun hk => ?_) fun _ => NF.ok _
    have h0 := adv_lt hk (by decide)
    refine NF.bind NF.consume fun p1 hp1 => NF.bind NF.consume fun p2 hp2 => ?_
    have h1 := consume_lt hp1 (by decide)
    have h2 := consume_lt hp2 (by decide)
    refine NF.bind (by call ih) fun p3 hp3 => ?_
    have h3 := len_of hp3
    refine NF.bind (by call ih) fun p4 hp4 => ?_
    have h4 := len_of hp4
    exact NF.bind (by call ih) fun _ _ => NF.ok _
  case conds =>
    refine NF.ite (fun hk => ?_) fun _ => NF.ok _
    have h0 := adv_lt hk (by decide)
    refine NF.bind (by call ih) fun p3 hp3 => ?_
    have h3 := len_of hp3
    exact NF.bind (by call ih) fun _ _ => NF.ok _
  case elifs =>
    refine NF.ite (fun hk => ?_) fun _ => NF.ok _
    have h0 := adv_lt hk (by decide)
    refine NF.bind (by call ih) fun p3 hp3 => ?_
    have h3 := len_of hp3
    refine NF.bind NF.consume fun p1 hp1 => ?_
    have h1 := consume_lt hp1 (by decide)
    refine NF.bind (by call ih) fun p4 hp4 => ?_
    have h4 := len_of hp4
    exact NF.bind (by call ih) fun _ _ => NF.ok _
  case ifParts =>
    refine NF.bind (by call ih) fun p3 hp3 => ?_
    have h3 := len_of hp3
    refine NF.bind NF.consume fun p1 hp1 => ?_
    have h1 := consume_lt hp1 (by decide)
    refine NF.bind (by call ih) fun p4 hp4 => ?_
    have h4 := len_of hp4
    refine NF.bind (by call ih) fun p5 hp5 => ?_
    have h5 := len_of hp5
    have h6 := adv_le p5.2
    refine NF.ite (fun _ => ?_) fun _ => NF.ok _
    refine NF.bind NF.consume fun p7 hp7 => ?_
    have h7 := consume_lt hp7 (by decide)
    exact NF.bind (by call ih) fun _ _ => NF.ok _
  case arms =>
    have h0 := skip_le t
    have h0' : (skipCase (skipNl t)).length ≤ (skipNl t).length := by
      unfold skipCase
      split
      · exact adv_le _
      · exact Nat.le_refl _
    refine NF.ite (fun _ => NF.ok _) fun _ => NF.ite (fun _ => NF.ok _) fun _ => ?_
    refine NF.bind NF.pat fun p1 hp1 => ?_
    obtain ⟨q, hq, -⟩ := pattern_ok hp1
    have h1 : p1.2.length < (skipCase (skipNl t)).length := by rw [hq]; simp
    refine NF.bind NF.consume fun p2 hp2 => ?_
    have h2 := consume_lt hp2 (by decide)
    refine NF.bind (by call ih) fun p3 hp3 => ?_
    have h3 := len_of hp3
    have h4 := skip_le p3.2
    exact NF.bind (by call ih) fun _ _ => NF.ok _
  case block =>
    have h0 := skip_le t
    refine NF.ite (fun hk => ?_) fun _ => ?_
    · have h1 := adv_lt hk (by decide)
      exact NF.bind (by call ih) fun _ _ => NF.bind NF.consume fun _ _ => NF.ok _
    · refine NF.bind NF.consume fun p1 hp1 => ?_
      have h1 := consume_lt hp1 (by decide)
      exact NF.bind (by call ih) fun _ _ => NF.bind NF.consume fun _ _ => NF.ok _
  case stmts c =>
    have h0 := skip_le t
    refine NF.ite (fun _ => NF.ok _) fun _ => NF.ite (fun _ => NF.ok _) fun _ => ?_
    refine NF.bind (by call ih) fun p3 hp3 => ?_
    have h3 := len_of hp3
    exact NF.bind (by call ih) fun _ _ => NF.ok _
  case stmt =>
    have optE : ∀ k s, s.length < t.length → NF (optExpr (parse n) k s) := by
      intro k s hs
      have := adv_le s
      exact NF.ite (fun _ => NF.bind (by call ih) fun _ _ => NF.ok _) fun _ => NF.ok _
    have h0 := adv_le t
    have h1 := adv_le (adv t)
    refine NF.ite (fun hk => ?_) fun _ => NF.ite (fun hk => ?_) fun _ => NF.ite (fun hk => ?_) fun _ =>
      NF.ite (fun hk => ?_) fun _ => NF.ite (fun hk => ?_) fun _ => NF.ite (fun _ => NF.syn) fun _ =>
      NF.ite (fun hk => ?_) fun _ => NF.ite (fun _ => NF.bind NF.term fun _ _ => NF.ok _) fun _ =>
      NF.ite (fun hk => ?_) fun _ => NF.ite (fun _ => NF.bind NF.consume fun _ _ => NF.ok _) fun _ =>
      NF.ite (fun hk => ?_) fun _ => NF.ite (fun hk => ?_) fun _ => ?_
    · have h0 := adv_lt hk (by decide)
      refine NF.bind NF.consume fun p1 hp1 => ?_
      have h1 := consume_lt hp1 (by decide)
      have h1' := adv_le p1.2
      refine NF.bind (NF.ite (fun _ => NF.bind (by call ih) fun _ _ => NF.ok _) fun _ => NF.ok _) fun p2 hp2 => ?_
      have h2 : p2.2.length ≤ p1.2.length := by
        rcases optType_ok (sound n) hp2 with ⟨-, hs⟩ | ⟨k, ty, u, w, -, -, -, hs⟩ <;> rw [hs] <;> simp; omega
      refine NF.bind NF.consume fun p3 hp3 => ?_
      have h3 := consume_lt hp3 (by decide)
      exact NF.bind (by call ih) fun _ _ => NF.bind NF.term fun _ _ => NF.ok _
    · have h0 := adv_lt hk (by decide)
      refine NF.bind (by call ih) fun p1 hp1 => ?_
      have h1 := len_of hp1
      dsimp only [LenRel] at h1
      exact NF.bind (optE _ _ (by omega)) fun _ _ => NF.bind NF.term fun _ _ => NF.ok _
    · have h0 := adv_lt hk (by decide)
      refine NF.bind (by call ih) fun p1 hp1 => ?_
      have h1 := len_of hp1
      dsimp only [LenRel] at h1
      exact NF.bind (optE _ _ (by omega)) fun _ _ => NF.bind NF.term fun _ _ => NF.ok _
    · have h0 := adv_lt hk (by decide)
      refine NF.bind (by call ih) fun p1 hp1 => ?_
      have h1 := len_of hp1
      refine NF.bind (by call ih) fun p2 hp2 => ?_
      have h2 := len_of hp2
      have h3 := adv_le p2.2
      have h4 := adv_le (adv p2.2)
      exact NF.bind (NF.ite (fun _ => by call ih) fun _ => NF.ok _) fun _ _ => NF.bind NF.term fun _ _ => NF.ok _
    · have h0 := adv_lt hk (by decide)
      refine NF.bind NF.consume fun p1 hp1 => NF.bind NF.consume fun p2 hp2 => ?_
      have h1 := consume_lt hp1 (by decide)
      have h2 := consume_lt hp2 (by decide)
      refine NF.bind (by call ih) fun p3 hp3 => ?_
      have h3 := len_of hp3
      refine NF.bind NF.consume fun p4 hp4 => ?_
      have h4 := consume_lt hp4 (by decide)
      exact NF.bind (by call ih) fun _ _ => NF.ok _
    · have h0 := adv_lt hk (by decide)
      exact NF.bind (by call ih) fun _ _ => NF.ok _
    · have h0 := adv_lt hk (by decide)
      refine NF.bind (NF.ite (fun _ => NF.ok _) fun _ => NF.bind (by call ih) fun _ _ => NF.ok _) fun p1 hp1 => ?_
      have h1 : p1.2.length ≤ (adv t).length := by
        rcases ite_ok hp1 with ⟨-, h⟩ | ⟨-, h⟩
        · cases pure_ok.1 h; exact Nat.le_refl _
        · obtain ⟨q, hq, h⟩ := bind_ok.1 h
          have := len_of hq
          cases pure_ok.1 h
          dsimp only [LenRel] at this ⊢
          omega
      have h2 := adv_le p1.2
      exact NF.bind (NF.ite (fun _ => NF.bind (by call ih) fun _ _ => NF.ok _) fun _ => NF.ok _) fun _ _ =>
        NF.bind NF.term fun _ _ => NF.ok _
    · have h0 := adv_lt hk.1 (by decide)
      refine NF.bind (by call ih) fun p1 hp1 => ?_
      have h2 := len_of hp1
      dsimp only [LenRel] at h2
      exact NF.bind (optE _ _ (by omega)) fun _ _ => NF.bind NF.term fun _ _ => NF.ok _
    · exact NF.bind (by call ih) fun _ _ => NF.bind NF.term fun _ _ => NF.ok _
    · refine NF.bind (by call ih) fun p1 hp1 => ?_
      have h2 := len_of hp1
      have h3 := adv_le p1.2
      refine NF.ite (fun _ => ?_) fun _ => NF.bind NF.term fun _ _ => NF.ok _
      exact NF.bind (by call ih) fun _ _ => NF.bind NF.term fun _ _ => NF.ok _
  case emitMeta =>
    refine NF.ite (fun hk => ?_) fun _ => NF.ok _
    have h0 := adv_lt hk (by decide)
    have h1 := adv_le (adv t)
    have h2 := adv_le (adv (adv t))
    refine NF.ite (fun _ => ?_) fun _ => NF.ok _
    refine NF.bind (by call ih) fun p1 hp1 => ?_
    have h3 := len_of hp1
    exact NF.bind (by call ih) fun _ _ => NF.ok _

theorem term_all (n : Nat) (s : Sym) (t : List Tok) (h : measure s t < n) : NF (parse n s t) := by
  induction n generalizing s t with
  | zero => omega
  | succ n ih => exact term_step ih s t h

end Verif.Parser
