import Verif.Export.Model
import Verif.Assembly.Props

/-! # The parts and the interfaces of the exported graph (C339, C340, C344) -/

namespace Verif.Export
open Verif.Dict Verif.Xform Verif.Assembly

/-- the two parts a mate joins, in its order -/
def pair (m : Mate ℝ) : String × String := (m.partA, m.partB)

/-- the mates from one part to another, in the order they were added -/
def between (ms : List (Mate ℝ)) (a b : String) : List (Mate ℝ) := ms.filter fun m => pair m = (a, b)

theorem groups_snoc (ms : List (Mate ℝ)) (m : Mate ℝ) : groups (ms ++ [m]) = dset (groups ms) (pair m) ((dget (groups ms) (pair m)).getD [] ++ [m]) := by
  unfold groups
  rw [List.foldl_append]
  rfl

theorem keys_groups (ms : List (Mate ℝ)) : (keys (groups ms)).Nodup ∧ ∀ k, k ∈ keys (groups ms) ↔ k ∈ ms.map pair := by
  induction ms using List.reverseRecOn with
  | nil => simp [groups, keys]
  | append_singleton ms m ih =>
    rw [groups_snoc]
    refine ⟨nodup_dset ih.1 _ _, fun k => ?_⟩
    rw [keys_dset, List.map_append, List.mem_append]
    split
    · rw [ih.2 k]
      constructor
      · exact Or.inl
      · rintro (h | h)
        · exact h
        · rw [List.map_cons, List.map_nil, List.mem_singleton] at h
          subst h
          exact (ih.2 _).1 (by assumption)
    · rw [List.mem_append, ih.2 k]
      simp

theorem dget_groups (ms : List (Mate ℝ)) (a b : String) : (dget (groups ms) (a, b)).getD [] = between ms a b := by
  induction ms using List.reverseRecOn with
  | nil => rfl
  | append_singleton ms m ih =>
    rw [groups_snoc, dget_dset]
    unfold between at ih ⊢
    rw [List.filter_append, ← ih]
    split
    · rename_i h
      rw [h, Option.getD_some]
      simp
    · rename_i h
      rw [List.filter_cons_of_neg (by simpa using fun e => h e.symm), List.filter_nil, List.append_nil]

theorem mem_groups {ms : List (Mate ℝ)} {g : (String × String) × List (Mate ℝ)} (h : g ∈ groups ms) : g.2 = between ms g.1.1 g.1.2 := by
  have := dget_groups ms g.1.1 g.1.2
  rw [dget_of_mem (keys_groups ms).1 (k := (g.1.1, g.1.2)) (v := g.2) h] at this
  exact this

/-- the order of the groups is the order in which the pairs first occur -/
theorem groups_order (ms : List (Mate ℝ)) : keys (groups ms) = (ms.map pair).eraseDups := by
  induction ms using List.reverseRecOn with
  | nil => rfl
  | append_singleton ms m ih =>
    rw [groups_snoc, keys_dset, List.map_append, List.eraseDups_append, ← ih]
    split
    · rename_i h
      have : pair m ∈ ms.map pair := ((keys_groups ms).2 _).1 h
      have e : List.removeAll [pair m] (ms.map pair) = [] := by
        unfold List.removeAll
        rw [List.filter_cons_of_neg (by simpa using this), List.filter_nil]
      rw [List.map_cons, List.map_nil, e]
      simp
    · rename_i h
      have h' : pair m ∉ ms.map pair := fun e => h (((keys_groups ms).2 _).2 e)
      have e : List.removeAll [pair m] (ms.map pair) = [pair m] := by
        unfold List.removeAll
        rw [List.filter_cons_of_pos (by simpa using h'), List.filter_nil]
      rw [List.map_cons, List.map_nil, e]
      rfl

section
variable {G H : Type} (conv : G → Option H) (attrs : Nat → Attrs G)

theorem interfaces_get {s : State} {k : Nat} {f : Iface} (h : (snapshot conv attrs s).interfaces[k]? = some f) :
    ∃ g, (groups s.mates)[k]? = some g ∧ f = ifaceFor s k g := by
  unfold snapshot at h
  simp only [List.getElem?_map, List.getElem?_zipIdx, Option.map_map, Option.map_eq_some_iff] at h
  obtain ⟨g, hg, rfl⟩ := h
  exact ⟨g, hg, by simp⟩

theorem interface_mem {s : State} {f : Iface} (h : f ∈ (snapshot conv attrs s).interfaces) :
    (f.parent, f.child) ∈ s.mates.map pair ∧ ∃ k, f = ifaceFor s k ((f.parent, f.child), between s.mates f.parent f.child) := by
  obtain ⟨k, hk⟩ := List.mem_iff_getElem?.1 h
  obtain ⟨g, hg, rfl⟩ := interfaces_get conv attrs hk
  have hm := List.mem_of_getElem? hg
  have he := mem_groups hm
  refine ⟨((keys_groups s.mates).2 _).1 (List.mem_map.2 ⟨g, hm, rfl⟩), k, ?_⟩
  show ifaceFor s k g = ifaceFor s k (g.1, between s.mates g.1.1 g.1.2)
  rw [← he]

theorem interfaces_pairs (s : State) : (snapshot conv attrs s).interfaces.map (fun f => (f.parent, f.child)) = (s.mates.map pair).eraseDups := by
  rw [← groups_order]
  unfold snapshot keys
  simp only [List.map_map]
  apply List.ext_getElem?
  intro k
  simp only [List.getElem?_map, List.getElem?_zipIdx, Option.map_map]
  cases (groups s.mates)[k]? <;> rfl

/-- C339: the exported graph has one interface for every pair of parts that is joined by a mate, in the order in which the pairs were first joined, none for a pair that is not, never two for the same pair,
and their ids count up from zero -/
theorem C339_interfaces (s : State) :
    ((snapshot conv attrs s).interfaces.map (fun f => (f.parent, f.child))).Nodup ∧
    (∀ a b, (∃ f ∈ (snapshot conv attrs s).interfaces, f.parent = a ∧ f.child = b) ↔ ∃ m ∈ s.mates, m.partA = a ∧ m.partB = b) ∧
    (∀ (k : Nat) f, (snapshot conv attrs s).interfaces[k]? = some f → f.index = k) ∧
    (snapshot conv attrs s).interfaces.map (fun f => (f.parent, f.child)) = (s.mates.map fun m => (m.partA, m.partB)).eraseDups := by
  have hp := interfaces_pairs conv attrs s
  have hk := keys_groups s.mates
  rw [groups_order] at hk
  refine ⟨hp ▸ hk.1, fun a b => ?_, fun k f h => ?_, hp⟩
  · have h1 := hk.2 (a, b)
    rw [← hp] at h1
    constructor
    · rintro ⟨f, hf, rfl, rfl⟩
      obtain ⟨m, hm, e⟩ := List.mem_map.1 (h1.1 (List.mem_map.2 ⟨f, hf, rfl⟩))
      exact ⟨m, hm, congrArg Prod.fst e, congrArg Prod.snd e⟩
    · rintro ⟨m, hm, rfl, rfl⟩
      obtain ⟨f, hf, e⟩ := List.mem_map.1 (h1.2 (List.mem_map.2 ⟨m, hm, rfl⟩))
      exact ⟨f, hf, congrArg Prod.fst e, congrArg Prod.snd e⟩
  · obtain ⟨g, -, rfl⟩ := interfaces_get conv attrs h
    rfl

/-- C339: nothing but the pair decides which mates an interface speaks for: every constraint of an interface comes from a mate of its pair -/
theorem C339_own_mates {s : State} {f : Iface} (h : f ∈ (snapshot conv attrs s).interfaces) :
    ∃ b, f.constraints = ((between s.mates f.parent f.child).filter fun m => !isMotion m.mtype).filterMap (constraintFor s b) := by
  obtain ⟨-, k, e⟩ := interface_mem conv attrs h
  exact ⟨_, by rw [e]; rfl⟩

end

/-! ## the parts -/

/-- every part entry is called as its definition -/
def OwnNames (s : State) : Prop := ∀ e ∈ s.parts, (s.defs e.2).name = e.1

/-- the datums of the definitions are filed under their names -/
def Filed (s : State) : Prop := ∀ r, ∀ e ∈ (s.defs r).datums, e.2.name = e.1

/-- an operation that does not give a part another name -/
def KeepsName (defs : Nat → PartDef) : Op → Prop
  | .addPart r name _ => name = none ∨ name = some (defs r).name
  | _ => True

theorem step_name (s : State) (o : Op) (r : Nat) : ((step s o).1.defs r).name = (s.defs r).name := by
  cases o with
  | addDatum r' d =>
    simp only [step]
    cases dget (s.defs r').datums d.name with
    | some _ => rfl
    | none =>
      show (Function.update s.defs r' _ r).name = _
      by_cases h : r = r'
      · subst h; rw [Function.update_self]
      · rw [Function.update_of_ne h]
  | importTransforms data =>
    simp only [step]
    cases data with
    | none => rfl
    | some l =>
      obtain ⟨tr, ht⟩ := importLoop_parts l s
      show ((importLoop s l).1.defs r).name = _
      rw [ht]
  | _ =>
    simp only [step]
    repeat' split
    all_goals rfl

theorem step_filed (s : State) (o : Op) (h : Filed s) : Filed (step s o).1 := by
  intro r e he
  cases o with
  | addDatum r' d =>
    simp only [step] at he
    cases hd : dget (s.defs r').datums d.name with
    | some _ => rw [hd] at he; exact h r e he
    | none =>
      rw [hd] at he
      replace he : e ∈ (Function.update s.defs r' { s.defs r' with datums := dset (s.defs r').datums d.name d } r).datums := he
      by_cases hr : r = r'
      · subst hr
        rw [Function.update_self] at he
        replace he : e ∈ dset (s.defs r).datums d.name d := he
        rw [mem_dset_new hd, List.mem_append, List.mem_singleton] at he
        rcases he with he | rfl
        · exact h r e he
        · rfl
      · rw [Function.update_of_ne hr] at he
        exact h r e he
  | importTransforms data =>
    simp only [step] at he
    cases data with
    | none => exact h r e he
    | some l =>
      obtain ⟨tr, ht⟩ := importLoop_parts l s
      replace he : e ∈ ((importLoop s l).1.defs r).datums := he
      rw [ht] at he
      exact h r e he
  | _ =>
    simp only [step] at he
    repeat' split at he
    all_goals exact h r e he

theorem step_own (s : State) (o : Op) (hk : KeepsName s.defs o) (h : OwnNames s) : OwnNames (step s o).1 := by
  intro e he
  rw [step_name]
  cases o with
  | addPart r name tr =>
    simp only [step] at he
    cases hd : dget s.parts (name.getD (s.defs r).name) with
    | some _ => rw [hd] at he; exact h e he
    | none =>
      rw [hd] at he
      have he' : e ∈ dset s.parts (name.getD (s.defs r).name) r := by
        rcases tr with _ | ⟨_ | _⟩ <;> exact he
      rw [mem_dset_new hd, List.mem_append, List.mem_singleton] at he'
      rcases he' with he' | rfl
      · exact h e he'
      · rcases hk with rfl | rfl <;> rfl
  | importTransforms data =>
    simp only [step] at he
    cases data with
    | none => exact h e he
    | some l =>
      obtain ⟨tr, ht⟩ := importLoop_parts l s
      replace he : e ∈ (importLoop s l).1.parts := he
      rw [ht] at he
      exact h e he
  | _ =>
    simp only [step] at he
    repeat' split at he
    all_goals exact h e he

theorem run_filed (s : State) (ops : List Op) (h : Filed s) : Filed (run s ops) := by
  induction ops generalizing s with
  | nil => exact h
  | cons o ops ih => exact ih _ (step_filed s o h)

theorem run_own (s : State) (ops : List Op) (hk : ∀ o ∈ ops, KeepsName s.defs o) (h : OwnNames s) : OwnNames (run s ops) := by
  induction ops generalizing s with
  | nil => exact h
  | cons o ops ih =>
    refine ih _ (fun o' ho' => ?_) (step_own s o (hk o (List.mem_cons_self ..)) h)
    have := hk o' (List.mem_cons_of_mem _ ho')
    cases o' with
    | addPart r name tr =>
      show name = none ∨ name = some ((step s o).1.defs r).name
      rw [step_name]
      exact this
    | _ => trivial

section
variable {G H : Type} (conv : G → Option H) (attrs : Nat → Attrs G)

/-- the exported part `n` has a datum called `d` -/
def HasOut (S : Snapshot H) (n d : String) : Prop := ∃ p ∈ S.parts, p.id = n ∧ ∃ x ∈ p.datums, x.name = d

theorem hasOut {s : State} (hf : Filed s) (ho : OwnNames s) {n d : String} {x : Datum} (h : HasDatum s n d x) : HasOut (snapshot conv attrs s) n d := by
  rw [hasDatum_iff] at h
  obtain ⟨r, h1, h2⟩ := h
  have hm := mem_of_dget h1
  have hm2 := mem_of_dget h2
  exact ⟨_, List.mem_map.2 ⟨(n, r), hm, rfl⟩, ho _ hm, outDatum x, List.mem_map.2 ⟨(d, x), hm2, rfl⟩, hf r _ hm2⟩

/-- C340 (partial: for assemblies whose parts keep the names of their definitions, see `C340_renamed`): after any history of calls, refused ones included, the exported graph is consistent: no two parts have the
same id, both ends of every interface are exported parts, every datum a mate speaks of is exported with its part, and every load case acts on an exported part or on the whole assembly -/
theorem C340_consistent_partial (defs : Nat → PartDef) (hd : ∀ r, (defs r).datums = []) (ops : List Op) (hk : ∀ o ∈ ops, KeepsName defs o) :
    let s := run (State.empty defs) ops
    let S := snapshot conv attrs s
    (S.parts.map OutPart.id).Nodup ∧ S.parts.map OutPart.id = s.parts.map (·.1) ∧
    (∀ f ∈ S.interfaces, f.parent ∈ S.parts.map OutPart.id ∧ f.child ∈ S.parts.map OutPart.id) ∧
    (∀ m ∈ s.mates, HasOut S m.partA m.datumA ∧ HasOut S m.partB m.datumB) ∧
    (∀ l ∈ S.loadCases, l.attachPart = "_assembly" ∨ l.attachPart ∈ S.parts.map OutPart.id) := by
  intro s S
  have hi : Integrity s := C17_integrity defs ops
  have ho : OwnNames s := run_own _ ops hk (by intro e he; cases he)
  have hf : Filed s := run_filed _ ops (by intro r e he; replace he : e ∈ (defs r).datums := he; rw [hd] at he; cases he)
  have hids : S.parts.map OutPart.id = s.parts.map (·.1) := by
    show (s.parts.map _).map OutPart.id = _
    rw [List.map_map]
    exact List.map_congr_left fun e he => ho e he
  have hmem : ∀ n, HasPart s n → n ∈ S.parts.map OutPart.id := by
    rintro n ⟨r, hr⟩
    rw [hids]
    exact List.mem_map.2 ⟨_, hr, rfl⟩
  have hmates : ∀ m ∈ s.mates, HasOut S m.partA m.datumA ∧ HasOut S m.partB m.datumB := by
    intro m hm
    obtain ⟨d1, d2, h1, h2, -⟩ := hi.mates m hm
    exact ⟨hasOut conv attrs hf ho h1, hasOut conv attrs hf ho h2⟩
  have hin : ∀ n d, HasOut S n d → n ∈ S.parts.map OutPart.id := by
    rintro n d ⟨p, hp, rfl, -⟩
    exact List.mem_map.2 ⟨p, hp, rfl⟩
  refine ⟨by rw [hids]; exact hi.uniqParts, hids, fun f hff => ?_, hmates, ?_⟩
  · obtain ⟨m, hm, e⟩ := List.mem_map.1 (interface_mem conv attrs hff).1
    obtain ⟨ha, hb⟩ := hmates m hm
    have e1 : m.partA = f.parent := congrArg Prod.fst e
    have e2 : m.partB = f.child := congrArg Prod.snd e
    exact ⟨e1 ▸ hin _ _ ha, e2 ▸ hin _ _ hb⟩
  · intro l hl
    obtain ⟨e, he, rfl⟩ := List.mem_map.1 (show l ∈ s.loadCases.map (·.2) from hl)
    rcases (hi.loads e he).2 with h | h
    · exact Or.inl h
    · exact Or.inr (hmem _ h)

/-- C344: every registered load case is exported, once, in the order of registration -/
theorem C344_load_cases (s : State) : (snapshot conv attrs s).loadCases = s.loadCases.map (·.2) ∧
    ∀ n lc, dget s.loadCases n = some lc → lc ∈ (snapshot conv attrs s).loadCases :=
  ⟨rfl, fun _ _ h => List.mem_map.2 ⟨_, mem_of_dget h, rfl⟩⟩

/-- C344 (partial: the pair must be joined by a mate in the same direction, see `C344_lost`): a bolt pattern is exported with the interface of its pair and with no other -/
theorem C344_bolts_partial (s : State) (hu : (s.boltPatterns.map (·.1)).Nodup) :
    (∀ f ∈ (snapshot conv attrs s).interfaces, ∀ b, f.bolts = some b ↔ ((f.parent, f.child), b) ∈ s.boltPatterns) ∧
    ∀ a c b, ((a, c), b) ∈ s.boltPatterns → (∃ m ∈ s.mates, m.partA = a ∧ m.partB = c) →
      ∃ f ∈ (snapshot conv attrs s).interfaces, f.parent = a ∧ f.child = c ∧ f.bolts = some b := by
  have h1 : ∀ f ∈ (snapshot conv attrs s).interfaces, ∀ b, f.bolts = some b ↔ ((f.parent, f.child), b) ∈ s.boltPatterns := by
    intro f hf b
    obtain ⟨-, k, e⟩ := interface_mem conv attrs hf
    have : f.bolts = dget s.boltPatterns (f.parent, f.child) := congrArg Iface.bolts e
    rw [this]
    exact ⟨mem_of_dget, dget_of_mem hu⟩
  refine ⟨h1, ?_⟩
  rintro a c b hb hm
  obtain ⟨f, hf, rfl, rfl⟩ := ((C339_interfaces conv attrs s).2.1 a c).2 hm
  exact ⟨f, hf, rfl, rfl, (h1 f hf b).2 hb⟩

/-- C344: a bolt pattern that was registered for the other direction of the mate is lost without a word: no interface of the graph carries it -/
theorem C344_lost (s : State) (a c b : String) (hb : (s.boltPatterns.map (·.2)).count b = 1) (h : ((a, c), b) ∈ s.boltPatterns) (hm : ∀ m ∈ s.mates, ¬ (m.partA = a ∧ m.partB = c))
    (hu : (s.boltPatterns.map (·.1)).Nodup) : ∀ f ∈ (snapshot conv attrs s).interfaces, f.bolts ≠ some b := by
  intro f hf e
  have h2 := ((C344_bolts_partial conv attrs s hu).1 f hf b).1 e
  have hne : (f.parent, f.child) ≠ (a, c) := by
    intro he
    obtain ⟨m, hm1, hm2, hm3⟩ := ((C339_interfaces conv attrs s).2.1 f.parent f.child).1 ⟨f, hf, rfl, rfl⟩
    exact hm m hm1 ⟨hm2.trans (congrArg Prod.fst he), hm3.trans (congrArg Prod.snd he)⟩
  obtain ⟨l1, l2, e1⟩ := List.append_of_mem h
  rw [e1] at hb h2
  rw [List.map_append, List.map_cons, List.count_append, List.count_cons_self] at hb
  have n1 : b ∉ l1.map (·.2) := by rw [← List.count_eq_zero]; omega
  have n2 : b ∉ l2.map (·.2) := by rw [← List.count_eq_zero]; omega
  rw [List.mem_append, List.mem_cons] at h2
  rcases h2 with h2 | h2 | h2
  · exact n1 (List.mem_map.2 ⟨_, h2, rfl⟩)
  · exact hne (congrArg Prod.fst h2)
  · exact n2 (List.mem_map.2 ⟨_, h2, rfl⟩)

end

/-- one definition used twice under different names, and a mate between the two -/
noncomputable def twice : List Op :=
  [.addDatum 0 exAxis, .addPart 0 (some "m1") none, .addPart 0 (some "b1") none, .addMate (exM .concentric "ax" "ax"), .addBoltPattern "m1" "b1" "M4"]

/-- C340: a part definition used for two parts of different names is exported twice under the name of the definition, and the interface between them refers to parts that do not exist -/
theorem C340_renamed : ∃ (defs : Nat → PartDef) (ops : List Op), (∀ r, (defs r).datums = []) ∧ ∃ f ∈ (snapshot (fun _ : Unit => (none : Option Unit)) (fun _ => ⟨none, none, []⟩) (run (State.empty defs) ops)).interfaces,
    (snapshot (fun _ : Unit => (none : Option Unit)) (fun _ => ⟨none, none, []⟩) (run (State.empty defs) ops)).parts.map OutPart.id = ["MOTOR", "MOTOR"] ∧ f.parent = "b1" ∧ f.child = "m1" := by
  refine ⟨exDefs, twice, ?_, ?_⟩
  · intro r
    rcases r with _ | _ <;> rfl
  · simp [snapshot, groups, twice, run, step, State.empty, exDefs, exAxis, dget, dset, exM, mateValidate, Function.update, ifaceFor, outPart]

/-- the consistent case is not empty: two parts with their own names, joined -/
example : (∀ o ∈ [Op.addDatum 0 exAxis, .addDatum 1 exAxis, .addPart 0 none none, .addPart 1 (some "BRACKET") none, .addMate { exM .concentric "ax" "ax" with partA := "BRACKET", partB := "MOTOR" }],
      KeepsName exDefs o) ∧
    (run (State.empty exDefs) [Op.addDatum 0 exAxis, .addDatum 1 exAxis, .addPart 0 none none, .addPart 1 (some "BRACKET") none,
      .addMate { exM .concentric "ax" "ax" with partA := "BRACKET", partB := "MOTOR" }]).mates.length = 1 := by
  constructor
  · simp [KeepsName, exDefs]
  · simp [run, step, State.empty, exDefs, exAxis, dget, dset, exM, mateValidate, Function.update]

/-- and the bolt pattern of `twice`, registered against the direction of the mate, is lost -/
example : (run (State.empty exDefs) twice).boltPatterns = [(("m1", "b1"), "M4")] ∧
    ∀ f ∈ (snapshot (fun _ : Unit => (none : Option Unit)) (fun _ => ⟨none, none, []⟩) (run (State.empty exDefs) twice)).interfaces, f.bolts = none := by
  simp [snapshot, groups, twice, run, step, State.empty, exDefs, exAxis, dget, dset, exM, mateValidate, Function.update, ifaceFor]

end Verif.Export
