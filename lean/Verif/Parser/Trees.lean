import Verif.Parser.Props
import Mathlib.Data.List.Induction

/-!
# The trees of blocks and calls (C138)

The grammar builds a block with `mkBlock` and a call with `positional` and `named`. Here is what these are, said
without them.
-/

namespace Verif.Parser

open Verif.Lexer Verif.Dict

theorem block_parts (n : Nat) : ∀ (b : Block) (t : Tail) (w : List Tok), w.length = n → D .block b t w →
    ∃ nl i c body u w' d, (∀ x ∈ nl, x.kind = "NEWLINE") ∧ w = nl ++ i :: w' ++ [d] ∧
      (i.kind = "INDENT" ∧ d.kind = "DEDENT" ∨ i.kind = "LBRACE" ∧ d.kind = "RBRACE") ∧
      D (.stmts c) body u w' ∧ b = mkBlock body := by
  induction n with
  | zero =>
    intro b t w hw h
    cases h <;> simp at hw
  | succ n ih =>
    intro b t w hw h
    cases h with
    | blockNl hn h =>
      rename_i u w n
      obtain ⟨nl, i, c, body, u, w', d, h1, h2, h3⟩ := ih _ _ _ (by simpa using hw) h
      refine ⟨n :: nl, i, c, body, u, w', d, ?_, by simp [h2], h3⟩
      intro x hx
      rcases List.mem_cons.1 hx with rfl | hx
      · exact hn
      · exact h1 x hx
    | indented hi hs ht hd => exact ⟨[], _, _, _, _, _, _, by simp, rfl, .inl ⟨hi, hd⟩, hs, rfl⟩
    | braced hi hs ht hd => exact ⟨[], _, _, _, _, _, _, by simp, rfl, .inr ⟨hi, hd⟩, hs, rfl⟩

/-- **C138, the tree of a block.** An accepted block is, after blank lines, an opening token, statements of the grammar
and a closing token. If the last statement is an expression it is the block's value and not one of its statements;
otherwise the block has no value and all statements are its statements. -/
theorem C138_block_tree (toks rest : List Tok) (ss : List Stmt) (v : Option Expr)
    (h : parseBlock toks = .ok (.mk ss v, rest)) :
    ∃ nl i c body t w d, (∀ n ∈ nl, n.kind = "NEWLINE") ∧ toks = nl ++ i :: w ++ d :: rest ∧
      (i.kind = "INDENT" ∧ d.kind = "DEDENT" ∨ i.kind = "LBRACE" ∧ d.kind = "RBRACE") ∧
      D (.stmts c) body t w ∧ body = ss ++ v.toList.map .exprS ∧
      (v = none → ∀ e, body.getLast? ≠ some (.exprS e)) := by
  obtain ⟨t, w, hw, hd⟩ := (C138_block _ _ _).1 h
  subst hw
  clear h
  obtain ⟨nl, i, c, body, u, w', d, h1, h2, h3, h4, hb⟩ := block_parts _ _ _ _ rfl hd
  refine ⟨nl, i, c, body, u, w', d, h1, by simp [h2], h3, h4, ?_⟩
  unfold mkBlock at hb
  split at hb
  · rename_i e he
    cases hb
    refine ⟨?_, by simp⟩
    have := List.dropLast_append_getLast? _ he
    simpa using this.symm
  · rename_i hn
    cases hb
    exact ⟨by simp, fun _ e he => hn e he⟩

/-- the dictionary of named arguments, item by item from the end -/
theorem named_snoc (l : List Item) (x : Item) :
    named (l ++ [x]) = match x.1 with | some k => dset (named l) k x.2 | none => named l := by
  unfold named
  rw [List.foldl_append]
  rcases x with ⟨_ | k, e⟩ <;> rfl

theorem named_nodup (l : List Item) : (keys (named l)).Nodup := by
  induction l using List.reverseRecOn with
  | nil => simp [named, keys]
  | append_singleton l x ih =>
    rw [named_snoc]
    rcases x with ⟨_ | k, e⟩
    · exact ih
    · exact nodup_dset ih k e

theorem snoc_split {α : Type} {l l1 l2 : List α} {x a : α} (h : l ++ [x] = l1 ++ a :: l2) :
    (l2 = [] ∧ l = l1 ∧ x = a) ∨ ∃ l3, l2 = l3 ++ [x] ∧ l = l1 ++ a :: l3 := by
  rcases List.eq_nil_or_concat l2 with rfl | ⟨l3, y, rfl⟩
  · have := List.append_inj' h rfl
    simp at this
    exact .inl ⟨rfl, this.1, this.2⟩
  · have h' : l ++ [x] = (l1 ++ a :: l3) ++ [y] := by simp [h]
    have := List.append_inj' h' rfl
    simp at this
    exact .inr ⟨l3, by simp [this.2], this.1⟩

/-- the value of a name is that of the last item with that name -/
theorem dget_named (l : List Item) (k : Name) (e : Expr) :
    dget (named l) k = some e ↔ ∃ l1 l2, l = l1 ++ (some k, e) :: l2 ∧ ∀ x ∈ l2, x.1 ≠ some k := by
  induction l using List.reverseRecOn with
  | nil => simp [named, dget]
  | append_singleton l x ih =>
    have other : x.1 ≠ some k → ((∃ l1 l2, l = l1 ++ (some k, e) :: l2 ∧ ∀ x ∈ l2, x.1 ≠ some k) ↔
        ∃ l1 l2, l ++ [x] = l1 ++ (some k, e) :: l2 ∧ ∀ x ∈ l2, x.1 ≠ some k) := by
      intro hx
      constructor
      · rintro ⟨l1, l2, rfl, h⟩
        exact ⟨l1, l2 ++ [x], by simp, by
          intro y hy
          rcases List.mem_append.1 hy with hy | hy
          · exact h y hy
          · simp at hy; rw [hy]; exact hx⟩
      · rintro ⟨l1, l2, h, h2⟩
        rcases snoc_split h with ⟨-, -, rfl⟩ | ⟨l3, rfl, rfl⟩
        · exact absurd rfl hx
        · exact ⟨l1, l3, rfl, fun y hy => h2 y (by simp [hy])⟩
    rw [named_snoc]
    rcases x with ⟨_ | k', e'⟩
    · dsimp only
      rw [ih]
      exact other (by simp)
    · dsimp only
      rw [dget_dset]
      by_cases hk : k = k'
      · subst hk
        rw [if_pos rfl]
        constructor
        · intro h; cases h
          exact ⟨l, [], rfl, by simp⟩
        · rintro ⟨l1, l2, h, h2⟩
          rcases snoc_split h with ⟨-, -, h⟩ | ⟨l3, rfl, rfl⟩
          · cases h; rfl
          · exact absurd rfl (h2 (some k, e') (by simp))
      · rw [if_neg hk, ih]
        exact other (by simp [Ne.symm hk])

/-- **C138, the arguments of a call.** In the tree of a call `f(...)` whose argument list has the items `as` (each with
its name or without) the positional arguments are the items without a name, in their order; each name occurs once, and
its argument is that of the last item with that name. -/
theorem C138_call_arguments (f o : Tok) (as : List Item) (u : Tail) (w rest : List Tok) (hf : f.kind = "IDENTIFIER")
    (ho : o.kind = "LPAREN") (hd : D (.seq .args) as u w) (hr : cur rest ∈ exprEnd) :
    ∃ ps ns, parseExpr (f :: o :: w ++ rest) = .ok (.call (.ident f.val) ps ns, rest) ∧
      ps.map (fun e => ((none : Option Name), e)) = as.filter (fun x => x.1 = none) ∧
      (ns.map (·.1)).Nodup ∧
      ∀ k e, (k, e) ∈ ns ↔ ∃ l1 l2, as = l1 ++ (some k, e) :: l2 ∧ ∀ x ∈ l2, x.1 ≠ some k := by
  have hc : D .post (.call (.ident f.val) (positional as) (named as)) {} ([f] ++ o :: w) :=
    .call (.prim (.ident (by rw [hf]; rfl))) rfl rfl ho hd
  refine ⟨_, _, (C138_expr _ _ _ hr).2 ⟨_, _, by simp, .expr (.operand (.unPost hc))⟩, ?_, named_nodup as, ?_⟩
  · unfold positional
    clear hd hc
    induction as with
    | nil => rfl
    | cons x as ih =>
      rcases x with ⟨_ | k, e⟩
      · simpa using ih
      · simpa using ih
  · intro k e
    rw [← dget_named]
    exact ⟨fun h => dget_of_mem (named_nodup as) h, mem_of_dget⟩

/-- `f(a=1, 2, a=3)` -/
example : parseExpr [nm "f", tk "LPAREN", nm "a", tk "ASSIGN", num 1, tk "COMMA", num 2, tk "COMMA", nm "a", tk "ASSIGN",
    num 3, tk "RPAREN"] =
    .ok (.call (.ident (nm "f").val) [.lit (num 2).kind (num 2).val] [((nm "a").val, .lit (num 3).kind (num 3).val)], []) := by rfl

/-- the block `x = 1`, `x` has one statement and the value `x`; the block `x = 1` has no value -/
example : parseBlock [tk "INDENT", nm "x", tk "ASSIGN", num 1, tk "NEWLINE", nm "x", tk "NEWLINE", tk "DEDENT"] =
      .ok (.mk [.varDecl (nm "x").val none (some (.lit (num 1).kind (num 1).val))] (some (.ident (nm "x").val)), []) ∧
    parseBlock [tk "INDENT", nm "x", tk "ASSIGN", num 1, tk "NEWLINE", tk "DEDENT"] =
      .ok (.mk [.varDecl (nm "x").val none (some (.lit (num 1).kind (num 1).val))] none, []) := by constructor <;> rfl

end Verif.Parser
