import Verif.Base.PyVal
import Mathlib.Algebra.Order.Floor.Ring
import Mathlib.Algebra.Order.Field.Basic
import Mathlib.Data.Rat.Floor
import Mathlib.Tactic.Ring
import Mathlib.Tactic.Linarith
import Mathlib.Tactic.NormNum

/-!
# Load cases and bolt patterns: `src/yapcad/assembly/load_case.py` (C346, C347)

The fields of a load case are arbitrary JSON values, as in Python; text of messages is not modelled.
-/

namespace Verif.Export
open Verif.Dict

/-- exceptions -/
inductive LErr
  | valueError | keyError | typeError | attributeError
deriving DecidableEq

section
variable {K : Type}

/-- `LoadAttach`, load_case.py:51-71 -/
structure Attach (K : Type) where
  part : Val K
  position : Val K
  interface : Val K
  clock : Val K
  bolt : Val K

/-- `LoadCase`, load_case.py:83-101 -/
structure Load (K : Type) where
  id : Val K
  name : Val K
  group : Val K
  direction : Val K
  attach : Attach K
  magN : Val K
  magG : Val K
  frame : Val K
  description : Val K
  source : Val K
  status : Val K
  warn : Val K

/-- `x in (…)` for a tuple of strings -/
def isOneOf (l : List String) : Val K → Bool
  | .str s => l.contains s
  | _ => false

/-- `x is None` -/
def isNone : Val K → Bool
  | .none => true
  | _ => false

/-- `len(x)` -/
def pyLen : Val K → Except LErr Nat
  | .str s => .ok s.length
  | .list l => .ok l.length
  | .dict d => .ok d.length
  | _ => .error .typeError

/-- `list(x)` -/
def pyList : Val K → Except LErr (List (Val K))
  | .str s => .ok (s.toList.map fun c => .str c.toString)
  | .list l => .ok l
  | .dict d => .ok (d.map fun e => .str e.1)
  | _ => .error .typeError

/-- `VALID_GROUPS`, load_case.py:42-47 -/
def groups' : List String := ["inertial", "recovery", "pressure", "handling", "custom"]
/-- `VALID_FRAMES`, load_case.py:30-32 -/
def frames : List String := ["vehicle", "mesh"]
/-- `VALID_STATUSES`, load_case.py:35-39 -/
def statuses : List String := ["confirmed", "estimated", "tribal", "placeholder"]

/-- `LoadCase.__post_init__`, load_case.py:103-124 -/
def Load.make (l : Load K) : Except LErr (Load K) :=
  if !isOneOf groups' l.group then .error .valueError
  else if !isOneOf frames l.frame then .error .valueError
  else if !isOneOf statuses l.status then .error .valueError
  else if isNone l.magN && isNone l.magG then .error .valueError
  else match pyLen l.direction with
    | .error e => .error e
    | .ok n => if n ≠ 3 then .error .valueError else .ok l

/-- `LoadAttach.to_dict`, load_case.py:73-80 -/
def Attach.toDict (a : Attach K) : Except LErr (List (String × Val K)) :=
  match pyList a.position with
  | .error e => .error e
  | .ok p => .ok [("part", a.part), ("position", .list p), ("interface", a.interface), ("clock_deg", a.clock), ("bolt_index", a.bolt)]

/-- `LoadCase.to_dict`, load_case.py:126-144 -/
def Load.toDict [DecidableEq K] [Zero K] (l : Load K) : Except LErr (List (String × Val K)) :=
  match pyList l.direction with
  | .error e => .error e
  | .ok dir =>
    match l.attach.toDict with
    | .error e => .error e
    | .ok a =>
      .ok ([("id", l.id), ("name", l.name), ("group", l.group), ("direction", .list dir), ("attach", .dict a), ("coordinate_frame", l.frame), ("description", l.description), ("source", l.source),
          ("status", l.status)] ++ (if isNone l.magN then [] else [("magnitude_n", l.magN)]) ++ (if isNone l.magG then [] else [("magnitude_g", l.magG)]) ++
        if l.warn.truthy then [("warn", .bool true)] else [])

/-- `d[k]` -/
def need (d : List (String × Val K)) (k : String) : Except LErr (Val K) :=
  match dget d k with
  | none => .error .keyError
  | some v => .ok v

/-- `LoadCase.from_dict`, load_case.py:146-169 -/
def Load.fromDict [Zero K] (d : List (String × Val K)) : Except LErr (Load K) :=
  match (dget d "attach").getD (.dict []) with
  | .dict a => do
    let part ← need a "part"
    let att : Attach K := ⟨part, (dget a "position").getD (.list [.num 0, .num 0, .num 0]), (dget a "interface").getD .none, (dget a "clock_deg").getD .none, (dget a "bolt_index").getD .none⟩
    let id ← need d "id"
    let name ← need d "name"
    let group ← need d "group"
    let direction ← need d "direction"
    Load.make ⟨id, name, group, direction, att, (dget d "magnitude_n").getD .none, (dget d "magnitude_g").getD .none, (dget d "coordinate_frame").getD (.str "vehicle"),
      (dget d "description").getD (.str ""), (dget d "source").getD (.str ""), (dget d "status").getD (.str "estimated"), (dget d "warn").getD (.bool false)⟩
  | .list _ | .str _ => .error .typeError
  | _ => .error .typeError

/-- a load case as it should be: known group, frame and status, a force or an acceleration, three components of direction -/
structure Valid (l : Load K) : Prop where
  group : ∃ s, l.group = .str s ∧ s ∈ ["inertial", "recovery", "pressure", "handling", "custom"]
  frame : ∃ s, l.frame = .str s ∧ s ∈ ["vehicle", "mesh"]
  status : ∃ s, l.status = .str s ∧ s ∈ ["confirmed", "estimated", "tribal", "placeholder"]
  magnitude : l.magN ≠ .none ∨ l.magG ≠ .none
  direction : ∃ v, l.direction = .list v ∧ v.length = 3

theorem isOneOf_iff (l : List String) (v : Val K) : isOneOf l v = true ↔ ∃ s, v = .str s ∧ s ∈ l := by
  cases v <;> simp [isOneOf]

theorem isNone_iff (v : Val K) : isNone v = true ↔ v = .none := by cases v <;> simp [isNone]

theorem make_ok_iff (l l' : Load K) (hd : ∃ v, l.direction = .list v) : l.make = .ok l' ↔ Valid l ∧ l' = l := by
  obtain ⟨v, hv⟩ := hd
  unfold Load.make
  by_cases h1 : isOneOf groups' l.group = true
  · by_cases h2 : isOneOf frames l.frame = true
    · by_cases h3 : isOneOf statuses l.status = true
      · by_cases h4 : (isNone l.magN && isNone l.magG) = true
        · rw [if_neg (by simp [h1]), if_neg (by simp [h2]), if_neg (by simp [h3]), if_pos h4]
          constructor
          · intro h; cases h
          · rintro ⟨⟨-, -, -, hm, -⟩, -⟩
            rw [Bool.and_eq_true, isNone_iff, isNone_iff] at h4
            rcases hm with h | h
            · exact absurd h4.1 h
            · exact absurd h4.2 h
        · rw [if_neg (by simp [h1]), if_neg (by simp [h2]), if_neg (by simp [h3]), if_neg h4, hv]
          show (if v.length ≠ 3 then Except.error LErr.valueError else Except.ok l) = _ ↔ _
          rw [Bool.and_eq_true, isNone_iff, isNone_iff] at h4
          split
          · rename_i h5
            constructor
            · intro h; cases h
            · rintro ⟨⟨-, -, -, -, w, hw, h6⟩, -⟩
              rw [hv] at hw
              cases hw
              exact absurd h6 h5
          · rename_i h5
            constructor
            · intro h; cases h
              exact ⟨⟨(isOneOf_iff _ _).1 h1, (isOneOf_iff _ _).1 h2, (isOneOf_iff _ _).1 h3, by tauto, v, hv, by omega⟩, rfl⟩
            · rintro ⟨-, rfl⟩; rfl
      · rw [if_neg (by simp [h1]), if_neg (by simp [h2]), if_pos (by simp [h3])]
        exact ⟨fun h => (by cases h), fun h => absurd ((isOneOf_iff _ _).2 h.1.status) h3⟩
    · rw [if_neg (by simp [h1]), if_pos (by simp [h2])]
      exact ⟨fun h => (by cases h), fun h => absurd ((isOneOf_iff _ _).2 h.1.frame) h2⟩
  · rw [if_pos (by simp [h1])]
    exact ⟨fun h => (by cases h), fun h => absurd ((isOneOf_iff _ _).2 h.1.group) h1⟩

/-- C346: a load case with a list for its direction can be made exactly when its group, frame and status are known, it has a force or an acceleration, and the direction has three components; otherwise the
constructor raises a `ValueError` -/
theorem C346_valid (l : Load K) (hd : ∃ v, l.direction = .list v) : (l.make = .ok l ↔ Valid l) ∧ (¬ Valid l → l.make = .error .valueError) := by
  refine ⟨(make_ok_iff l l hd).trans (and_iff_left rfl), fun h => ?_⟩
  cases hm : l.make with
  | ok l' => exact absurd ((make_ok_iff l l' hd).1 hm).1 h
  | error e =>
    obtain ⟨v, hv⟩ := hd
    unfold Load.make at hm
    rw [hv] at hm
    split at hm
    · cases hm; rfl
    · split at hm
      · cases hm; rfl
      · split at hm
        · cases hm; rfl
        · split at hm
          · cases hm; rfl
          · replace hm : (if v.length ≠ 3 then Except.error LErr.valueError else Except.ok l) = Except.error e := hm
            split at hm
            · cases hm; rfl
            · cases hm

/-- C346: what is read from a dictionary has been checked: reading never yields a load case that could not be made -/
theorem C346_read [Zero K] {d : List (String × Val K)} {l : Load K} (h : Load.fromDict d = .ok l) (hd : ∃ v, l.direction = .list v) : Valid l := by
  unfold Load.fromDict at h
  have key : ∃ l', Load.make l' = .ok l := by
    split at h
    · simp only [bind, Except.bind] at h
      split at h
      · cases h
      · split at h
        · cases h
        · split at h
          · cases h
          · split at h
            · cases h
            · split at h
              · cases h
              · exact ⟨_, h⟩
    all_goals cases h
  obtain ⟨l', hl⟩ := key
  have : l = l' := by
    unfold Load.make at hl
    split at hl
    · cases hl
    · split at hl
      · cases hl
      · split at hl
        · cases hl
        · split at hl
          · cases hl
          · split at hl
            · cases hl
            · split at hl
              · cases hl
              · cases hl; rfl
  subst this
  exact ((C346_valid l hd).1).1 hl

/-- C346: a load case survives being written to a dictionary and read back, with everything it says: attachment, magnitudes, frame, status and warning -/
theorem C346_round_trip [DecidableEq K] [Zero K] (l : Load K) (hv : Valid l) (hp : ∃ p, l.attach.position = .list p) (hw : ∃ b, l.warn = .bool b) :
    ∃ d, l.toDict = .ok d ∧ Load.fromDict d = .ok l := by
  obtain ⟨dir, hd, hd3⟩ := hv.direction
  obtain ⟨p, hp⟩ := hp
  obtain ⟨b, hb⟩ := hw
  have hm : l.make = .ok l := (C346_valid l ⟨dir, hd⟩).1.2 hv
  obtain ⟨id, name, group, direction, ⟨part, position, interface, clock, bolt⟩, magN, magG, frame, description, source, status, warn⟩ := l
  simp only at hd hp hb
  subst hd hp hb
  refine ⟨_, by unfold Load.toDict Attach.toDict; rfl, ?_⟩
  unfold Load.fromDict
  cases hN : isNone magN <;> cases hG : isNone magG <;> cases b <;>
    (simp only [isNone_iff, Val.truthy] at hN hG ⊢
     first | subst hN | skip
     first | subst hG | skip
     simp [dget, need, bind, Except.bind]
     exact hm)

end

/-- a load on the whole assembly and one that is attached to a bolt -/
def exLoad : Load ℚ :=
  ⟨.str "LC-1", .str "chute", .str "recovery", .list [.num 0, .num 0, .num 1], ⟨.str "tank", .list [.num 1, .num 2, .num 3], .str "iface_0", .num 90, .none⟩, .num 6000, .none, .str "vehicle", .str "", .str "",
    .str "estimated", .bool true⟩

example : Valid exLoad ∧ (∃ p, exLoad.attach.position = .list p) ∧ ∃ b, exLoad.warn = .bool b :=
  ⟨⟨⟨_, rfl, by simp⟩, ⟨_, rfl, by simp⟩, ⟨_, rfl, by simp⟩, Or.inl (by simp [exLoad]), ⟨_, rfl, rfl⟩⟩, ⟨_, rfl⟩, _, rfl⟩

/-- without a magnitude it is refused -/
example : ({ exLoad with magN := .none }).make = .error .valueError := rfl

/-! ## bolt patterns -/

section
variable {K : Type} [Field K] [LinearOrder K] [IsStrictOrderedRing K] [FloorRing K]

/-- `BoltPattern`, load_case.py:172-187; the number of bolts is any number, as nothing checks that it is whole -/
structure BoltPattern (K : Type) where
  pcd : K
  bolts : K
  spec : String
  access : List K

/-- `BoltPattern.__post_init__`, load_case.py:189-197 -/
def BoltPattern.make (b : BoltPattern K) : Except LErr (BoltPattern K) :=
  if b.pcd ≤ 0 then .error .valueError
  else if b.bolts ≤ 0 then .error .valueError
  else if b.access.length ≠ 3 then .error .valueError
  else .ok b

/-- `BoltPattern.to_dict` and `BoltPattern.from_dict`, load_case.py:199-213: what is read back from what was written. `int` cuts off the fraction -/
def BoltPattern.again (b : BoltPattern K) : Except LErr (BoltPattern K) :=
  BoltPattern.make ⟨b.pcd, (⌊b.bolts⌋ : ℤ), b.spec, b.access⟩

/-- C347 (partial: for a whole number of bolts, see `C347_fraction`): a bolt pattern can be made exactly with a positive pitch circle, a positive number of bolts and a direction of three components, and then it
survives being written and read -/
theorem C347_bolts_partial (b : BoltPattern K) : (b.make = .ok b ↔ 0 < b.pcd ∧ 0 < b.bolts ∧ b.access.length = 3) ∧ (∀ n : ℤ, b.bolts = n → b.make = .ok b → b.again = .ok b) := by
  constructor
  · unfold BoltPattern.make
    split
    · exact ⟨fun h => (by cases h), fun h => absurd h.1 (by linarith)⟩
    · split
      · exact ⟨fun h => (by cases h), fun h => absurd h.2.1 (by linarith)⟩
      · split
        · rename_i h; exact ⟨fun h => (by cases h), fun h' => absurd h'.2.2 h⟩
        · rename_i h1 h2 h3
          exact ⟨fun _ => ⟨not_le.1 h1, not_le.1 h2, not_not.1 h3⟩, fun _ => rfl⟩
  · intro n hn h
    unfold BoltPattern.again
    have : ((⌊b.bolts⌋ : ℤ) : K) = b.bolts := by rw [hn, Int.floor_intCast]
    rw [this]
    exact h

/-- C347: half a bolt is accepted, and written as none, which cannot be read -/
theorem C347_fraction (b : BoltPattern K) (h1 : b.make = .ok b) (h2 : b.bolts < 1) : b.again = .error .valueError := by
  obtain ⟨ha, hb, hc⟩ := (C347_bolts_partial b).1.1 h1
  have : ⌊b.bolts⌋ = 0 := Int.floor_eq_zero_iff.2 ⟨hb.le, h2⟩
  unfold BoltPattern.again BoltPattern.make
  rw [this, if_neg (not_le.2 ha)]
  simp

end

example : (⟨284, 12, "M6", [0, 0, 1]⟩ : BoltPattern ℚ).make = .ok ⟨284, 12, "M6", [0, 0, 1]⟩ := by norm_num [BoltPattern.make]
example : (⟨284, 1 / 2, "M6", [0, 0, 1]⟩ : BoltPattern ℚ).make = .ok ⟨284, 1 / 2, "M6", [0, 0, 1]⟩ := by norm_num [BoltPattern.make]

end Verif.Export
