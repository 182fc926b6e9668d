import Verif.Interp.Lemmas

/-! # Call depth, and what a command run records (C27, C28) -/

namespace Verif.Interp

open Verif.Dict Verif.Types
variable {F : Type}

/-- the requirement failures a log records for the command run begun at call depth `k` -/
def failsAt (k : Nat) (l : List (Event F)) : List String :=
  l.filterMap fun e => match e with
    | .fail m j => if j = k then some m else none
    | _ => none

/-- the values a log records as emitted by the command run begun at call depth `k` -/
def emitsAt (k : Nat) (l : List (Event F)) : List (Val F) :=
  l.filterMap fun e => match e with
    | .emit v j => if j = k then some v else none
    | _ => none

/-- the level an event belongs to -/
def Event.lvl : Event F → Nat
  | .enter _ k => k
  | .emit _ k => k
  | .fail _ k => k
  | .builtin _ k => k

/-- the value of the last emit -/
def lastOr {α : Type} (d : Option α) (l : List α) : Option α := match l.getLast? with
  | some x => some x
  | none => d

theorem failsAt_append (k : Nat) (l m : List (Event F)) : failsAt k (l ++ m) = failsAt k l ++ failsAt k m := by
  simp [failsAt]

theorem emitsAt_append (k : Nat) (l m : List (Event F)) : emitsAt k (l ++ m) = emitsAt k l ++ emitsAt k m := by
  simp [emitsAt]

theorem lastOr_append {α : Type} (d : Option α) (l m : List α) : lastOr d (l ++ m) = lastOr (lastOr d l) m := by
  unfold lastOr
  rw [List.getLast?_append]
  cases m.getLast? <;> cases l.getLast? <;> rfl

theorem failsAt_none (k : Nat) (l : List (Event F)) (h : ∀ e ∈ l, k < e.lvl) : failsAt k l = [] := by
  unfold failsAt
  rw [List.filterMap_eq_nil_iff]
  intro e he
  have := h e he
  cases e <;> simp_all [Event.lvl]
  omega

theorem emitsAt_none (k : Nat) (l : List (Event F)) (h : ∀ e ∈ l, k < e.lvl) : emitsAt k l = [] := by
  unfold emitsAt
  rw [List.filterMap_eq_nil_iff]
  intro e he
  have := h e he
  cases e <;> simp_all [Event.lvl]
  omega

/-- call depth and level are as before, and the log has grown by events of this or deeper levels, each entry of a
command within the limit; requirement failures and emitted value of the context are those in the log -/
def LR (P : Prog F) (s s' : St F) : Prop :=
  s'.depth = s.depth ∧ s'.ctx.level = s.ctx.level ∧
  (s.ctx.level ≤ s.depth → ∃ l, s'.log = s.log ++ l ∧ (∀ e ∈ l, s.ctx.level ≤ e.lvl) ∧
    (∀ c k, Event.enter c k ∈ l → s.depth < k ∧ k ≤ P.limit) ∧
    s'.ctx.fails = s.ctx.fails ++ failsAt s.ctx.level l ∧
    s'.ctx.emit.map (·.1) = lastOr (s.ctx.emit.map (·.1)) (emitsAt s.ctx.level l))

theorem LR_same (P : Prog F) (s s' : St F) (h1 : s'.depth = s.depth) (h2 : s'.ctx.level = s.ctx.level)
    (h3 : s'.log = s.log) (h4 : s'.ctx.fails = s.ctx.fails) (h5 : s'.ctx.emit = s.ctx.emit) : LR P s s' :=
  ⟨h1, h2, fun _ => ⟨[], by simp [h3], by simp, by simp, by simp [h4, failsAt], by simp [h5, lastOr, emitsAt]⟩⟩

theorem good_LR (P : Prog F) : Good P (LR P) where
  refl s := LR_same P s s rfl rfl rfl rfl rfl
  trans s t u h1 h2 := by
    obtain ⟨a1, a2, a3⟩ := h1
    obtain ⟨b1, b2, b3⟩ := h2
    refine ⟨b1.trans a1, b2.trans a2, fun hl => ?_⟩
    obtain ⟨l, c1, c2, c3, c4, c5⟩ := a3 hl
    obtain ⟨m, d1, d2, d3, d4, d5⟩ := b3 (by rw [a1, a2]; exact hl)
    rw [a2] at d2 d4 d5
    rw [a1] at d3
    refine ⟨l ++ m, by rw [d1, c1, List.append_assoc], ?_, ?_, ?_, ?_⟩
    · intro e he
      rcases List.mem_append.mp he with he | he
      · exact c2 e he
      · exact d2 e he
    · intro c k he
      rcases List.mem_append.mp he with he | he
      · exact c3 c k he
      · exact d3 c k he
    · rw [d4, c4, failsAt_append, List.append_assoc]
    · rw [d5, c5, emitsAt_append, lastOr_append]
  setVar x v s := LR_same P _ _ rfl rfl rfl rfl rfl
  assign s x v fr h := LR_same P _ _ rfl rfl rfl rfl rfl
  diag s d := LR_same P _ _ rfl rfl rfl rfl rfl
  ret s v := LR_same P _ _ rfl rfl rfl rfl rfl
  fail s m := ⟨rfl, rfl, fun _ => ⟨[.fail m s.ctx.level], rfl, by simp [Event.lvl], by simp,
    by simp [failsAt], by simp [emitsAt, lastOr]⟩⟩
  emit s v md := ⟨rfl, rfl, fun _ => ⟨[.emit v s.ctx.level], rfl, by simp [Event.lvl], by simp,
    by simp [failsAt], by simp [emitsAt, lastOr]⟩⟩
  builtin s n := ⟨rfl, rfl, fun _ => ⟨[.builtin n s.ctx.level], rfl, by simp [Event.lvl], by simp,
    by simp [failsAt], by simp [emitsAt, lastOr]⟩⟩
  scope s s' h := h
  callEarly s s1 hl h := by
    obtain ⟨a1, a2, a3⟩ := h
    simp only at a1 a2 a3
    refine ⟨by simp [a1], a2, fun hle => ?_⟩
    obtain ⟨l, c1, c2, c3, c4, c5⟩ := a3 (by omega)
    exact ⟨l, c1, c2, fun c k he => ⟨by have := (c3 c k he).1; omega, (c3 c k he).2⟩, c4, c5⟩
  call s s1 s2 params name hl h1 h2 := by
    obtain ⟨a1, a2, a3⟩ := h1
    obtain ⟨b1, b2, b3⟩ := h2
    simp only [freshCtx] at a1 a2 a3 b1 b2 b3
    refine ⟨by simp [b1, a1], a2, fun hle => ?_⟩
    obtain ⟨l, c1, c2, c3, c4, c5⟩ := a3 (by omega)
    obtain ⟨m, d1, d2, d3, d4, d5⟩ := b3 (Nat.le_refl _)
    have hdeep : ∀ e ∈ Event.enter name s1.depth :: m, s.ctx.level < e.lvl := by
      intro e he
      rcases List.mem_cons.mp he with rfl | he
      · simp only [Event.lvl]; omega
      · have := d2 e he; omega
    refine ⟨l ++ (.enter name s1.depth :: m), ?_, ?_, ?_, ?_, ?_⟩
    · simp [d1, c1, List.append_assoc]
    · intro e he
      rcases List.mem_append.mp he with he | he
      · exact c2 e he
      · exact Nat.le_of_lt (hdeep e he)
    · intro c k he
      rcases List.mem_append.mp he with he | he
      · have := c3 c k he; omega
      · rcases List.mem_cons.mp he with he | he
        · cases he; omega
        · have := d3 c k he; omega
    · simp only; rw [c4, failsAt_append, failsAt_none _ _ hdeep, List.append_nil]
    · simp only; rw [c5, emitsAt_append, emitsAt_none _ _ hdeep, List.append_nil]

end Verif.Interp
