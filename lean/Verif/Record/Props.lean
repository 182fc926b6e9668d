import Verif.Record.Model
import Mathlib.Tactic.Linarith
import Mathlib.Tactic.NormNum
import Mathlib.Data.List.TakeWhile

/-!
# C231-C240: records written as dictionaries and read again
-/

namespace Verif.Record

@[simp] theorem nums_map (l : List ℚ) : nums (l.map .num) = .ok l := by
  induction l with
  | nil => rfl
  | cons q l ih => rw [List.map_cons, nums]; simp only [asNum, ih]

@[simp] theorem asNums_of (l : List ℚ) : asNums (ofNums l) = .ok l := nums_map l

@[simp] theorem strs_map (l : List String) : strs (l.map .str) = .ok l := by
  induction l with
  | nil => rfl
  | cons q l ih => rw [List.map_cons, strs]; simp only [asStr, ih]

@[simp] theorem numss_map (l : List (List ℚ)) : numss (l.map ofNums) = .ok l := by
  induction l with
  | nil => rfl
  | cons q l ih => rw [List.map_cons, numss, asNums_of]; simp only [ih]

@[simp] theorem asInt_cast (n : ℤ) : asInt (.num (n : ℚ)) = .ok n := by
  simp [asInt]

@[simp] theorem tr_roundtrip (t : Tr) : Tr.fromDict t.toDict = .ok t := by
  simp [Tr.fromDict, Tr.toDict, need, J.get, asNumss]

theorem ok_bind {ε α β : Type} (x : α) (f : α → Except ε β) : (Except.ok x >>= f) = f x := rfl

theorem bind_ok {ε α β : Type} {x : Except ε α} {f : α → Except ε β} {b : β} (h : (x >>= f) = .ok b) : ∃ a, x = .ok a ∧ f a = .ok b := by
  rcases x with e | a
  · cases h
  · exact ⟨a, rfl, h⟩

/-! ## C231, C232: load cases -/

theorem attach_roundtrip (a : Attach) : Attach.fromDict a.toDict = .ok a := by
  obtain ⟨part, position, interface, clock, bolt⟩ := a
  unfold Attach.fromDict Attach.toDict
  rcases interface with _ | i <;> rcases clock with _ | c <;> rcases bolt with _ | b <;>
    simp [need, opt, dflt, J.get, List.lookup, ofOpt, asStr, asNum, ok_bind, pure, Except.pure]

/-- **C231.** A load case that could be constructed is the same after it has been written as a dictionary and read again. -/
theorem C231_load_case (c : Case) (h : c.init = .ok c) : Case.fromDict c.toDict = .ok c := by
  obtain ⟨id, name, group, direction, attach, mn, mg, frame, description, source, status, warn⟩ := c
  unfold Case.fromDict Case.toDict
  rcases mn with _ | mn <;> rcases mg with _ | mg <;> rcases warn with _ | _ <;>
    simp [need, opt, dflt, J.get, List.lookup, asStr, asNum, asBool, ok_bind, attach_roundtrip, h]

/-- the load case of the example -/
def chute : Case := { id := "LC-1", name := "chute", group := "recovery", direction := [0, 0, -1], attach := { part := "nose", clock := some 45, bolt := some 3 }, magnitudeN := some 4000, warn := true }

example : chute.init = .ok chute ∧ Case.fromDict chute.toDict = .ok chute := by
  constructor
  · decide +kernel
  · exact C231_load_case chute (by decide +kernel)

theorem init_ok {c c' : Case} (h : c.init = .ok c') :
    c' = c ∧ c.group ∈ ["inertial", "recovery", "pressure", "handling", "custom"] ∧ c.frame ∈ ["vehicle", "mesh"] ∧ c.status ∈ ["confirmed", "estimated", "tribal", "placeholder"] ∧
    (c.magnitudeN ≠ none ∨ c.magnitudeG ≠ none) ∧ c.direction.length = 3 := by
  unfold Case.init at h
  split_ifs at h with h1 h2 h3 h4 h5
  cases h
  refine ⟨rfl, ?_, ?_, ?_, ?_, ?_⟩
  · exact h1
  · exact h2
  · exact h3
  · rw [not_and_or] at h4; exact h4
  · exact not_not.mp h5

theorem need_str {d : J} {k s : String} (h : need asStr d k = .ok s) : d.get k = some (.str s) := by
  unfold need at h
  rcases e : d.get k with _ | v
  · rw [e] at h; cases h
  · rw [e] at h
    dsimp only at h
    cases v <;> cases h
    rfl

theorem dflt_str {d : J} {k x s : String} (h : dflt asStr x d k = .ok s) : d.get k = some (.str s) ∨ (d.get k = none ∧ s = x) := by
  unfold dflt at h
  rcases e : d.get k with _ | v
  · rw [e] at h; cases h; exact .inr ⟨rfl, rfl⟩
  · rw [e] at h
    dsimp only at h
    cases v <;> cases h
    exact .inl rfl

/-- **C232, the part that holds.** Every load case that is read has a known group, frame and status, at least one magnitude, a direction of three numbers, and the id, name, group and part that
the dictionary has: all of them are required; frame and status have defaults. -/
theorem C232_valid_partial {d : J} {c : Case} (h : Case.fromDict d = .ok c) :
    c.group ∈ ["inertial", "recovery", "pressure", "handling", "custom"] ∧ c.frame ∈ ["vehicle", "mesh"] ∧ c.status ∈ ["confirmed", "estimated", "tribal", "placeholder"] ∧
    (c.magnitudeN ≠ none ∨ c.magnitudeG ≠ none) ∧ c.direction.length = 3 ∧
    d.get "id" = some (.str c.id) ∧ d.get "name" = some (.str c.name) ∧ d.get "group" = some (.str c.group) ∧
    (∃ a, d.get "attach" = some a ∧ a.get "part" = some (.str c.attach.part)) ∧
    (d.get "coordinate_frame" = some (.str c.frame) ∨ (d.get "coordinate_frame" = none ∧ c.frame = "vehicle")) ∧
    (d.get "status" = some (.str c.status) ∨ (d.get "status" = none ∧ c.status = "estimated")) := by
  unfold Case.fromDict at h
  obtain ⟨attach, ha, h⟩ := bind_ok h
  obtain ⟨id, h1, h⟩ := bind_ok h
  obtain ⟨name, h2, h⟩ := bind_ok h
  obtain ⟨group, h3, h⟩ := bind_ok h
  obtain ⟨direction, h4, h⟩ := bind_ok h
  obtain ⟨mn, h5, h⟩ := bind_ok h
  obtain ⟨mg, h6, h⟩ := bind_ok h
  obtain ⟨frame, h7, h⟩ := bind_ok h
  obtain ⟨description, h8, h⟩ := bind_ok h
  obtain ⟨source, h9, h⟩ := bind_ok h
  obtain ⟨status, h10, h⟩ := bind_ok h
  obtain ⟨warn, h11, h⟩ := bind_ok h
  obtain ⟨rfl, g1, g2, g3, g4, g5⟩ := init_ok h
  refine ⟨g1, g2, g3, g4, g5, need_str h1, need_str h2, need_str h3, ?_, dflt_str h7, dflt_str h10⟩
  unfold Attach.fromDict at ha
  obtain ⟨part, p1, ha⟩ := bind_ok ha
  obtain ⟨position, p2, ha⟩ := bind_ok ha
  obtain ⟨interface, p3, ha⟩ := bind_ok ha
  obtain ⟨clock, p4, ha⟩ := bind_ok ha
  obtain ⟨bolt, p5, ha⟩ := bind_ok ha
  cases ha
  have := need_str p1
  rcases e : d.get "attach" with _ | a
  · rw [e] at this; cases this
  · rw [e] at this; exact ⟨a, rfl, this⟩

/-- **C232, what does not.** The direction is documented as a unit vector, but a load case with the direction (0, 0, 0) is accepted, constructed or read. -/
theorem C232_zero_direction : ∃ c : Case, c.direction = [0, 0, 0] ∧ c.init = .ok c ∧ Case.fromDict c.toDict = .ok c :=
  ⟨{ chute with direction := [0, 0, 0] }, rfl, by decide +kernel, C231_load_case _ (by decide +kernel)⟩

/-! ## C233: bolt patterns -/

/-- **C233, the part that holds.** A bolt pattern with a whole number of bolts that could be constructed is the same after writing and reading. -/
theorem C233_bolts_partial (b : Bolts) (h : b.init = .ok b) (n : ℤ) (hn : b.n = n) : Bolts.fromDict b.toDict = .ok b := by
  obtain ⟨pcd, m, spec, access⟩ := b
  dsimp only at hn
  subst hn
  have : trunc (n : ℚ) = n := by unfold trunc; split_ifs <;> simp
  unfold Bolts.fromDict Bolts.toDict
  simp [need, dflt, J.get, List.lookup, asStr, asNum, ok_bind, h, this]

example : Bolts.fromDict (Bolts.toDict ⟨120, 8, "m6", [0, 0, 1]⟩) = .ok ⟨120, 8, "m6", [0, 0, 1]⟩ := C233_bolts_partial _ (by decide +kernel) 8 rfl

/-- Every bolt pattern that is read has a positive diameter, a positive number of bolts and an access direction of three numbers. -/
theorem C233_valid {d : J} {b : Bolts} (h : Bolts.fromDict d = .ok b) : 0 < b.pcd ∧ 0 < b.n ∧ b.access.length = 3 := by
  unfold Bolts.fromDict at h
  obtain ⟨pcd, h1, h⟩ := bind_ok h
  obtain ⟨n, h2, h⟩ := bind_ok h
  obtain ⟨spec, h3, h⟩ := bind_ok h
  obtain ⟨access, h4, h⟩ := bind_ok h
  unfold Bolts.init at h
  split_ifs at h with g1 g2 g3
  cases h
  exact ⟨not_le.mp g1, not_le.mp g2, not_not.mp g3⟩

/-- **C233, what does not.** Two and a half bolts are accepted and written as two; half a bolt is accepted, but what is written is refused when it is read. -/
theorem C233_fraction :
    (∃ b : Bolts, b.n = 5 / 2 ∧ b.init = .ok b ∧ ∃ b', Bolts.fromDict b.toDict = .ok b' ∧ b'.n = 2) ∧
    ∃ b : Bolts, b.n = 1 / 2 ∧ b.init = .ok b ∧ Bolts.fromDict b.toDict = .error .value := by
  refine ⟨⟨⟨120, 5 / 2, "m6", [0, 0, 1]⟩, rfl, by decide +kernel, ⟨120, 2, "m6", [0, 0, 1]⟩, ?_, rfl⟩, ⟨⟨120, 1 / 2, "m6", [0, 0, 1]⟩, rfl, by decide +kernel, ?_⟩⟩ <;> decide +kernel

/-! ## C234, C235: kinematic parts -/

/-- a frame with the transform it has at the time of writing -/
def Frame.frozen (lookup : String → String → Option Tr) (f : Frame) : Frame := { f with transform := some (f.get lookup) }

theorem frame_roundtrip (lookup : String → String → Option Tr) (f : Frame) : Frame.fromDict (f.toDict lookup) = .ok (f.frozen lookup) := by
  obtain ⟨name, transform, source, datum, description⟩ := f
  unfold Frame.fromDict Frame.toDict Frame.frozen
  rcases source with _ | s <;> rcases datum with _ | d <;>
    simp [need, opt, dflt, J.get, List.lookup, ofOpt, asStr, ok_bind, pure, Except.pure]

/-- **C234, the part that holds.** A frame that is written and read again has its name, datum and description, and the transform it had when it was written; a frame with a transform
of its own is the same. -/
theorem C234_frame_partial (lookup lookup' : String → String → Option Tr) (f : Frame) :
    ∃ f', Frame.fromDict (f.toDict lookup) = .ok f' ∧ f'.get lookup' = f.get lookup ∧ f'.name = f.name ∧ f'.source = f.source ∧ f'.datum = f.datum ∧ f'.description = f.description ∧
      (f.transform ≠ none → f' = f) := by
  refine ⟨_, frame_roundtrip lookup f, rfl, rfl, rfl, rfl, rfl, fun h => ?_⟩
  obtain ⟨name, transform, source, datum, description⟩ := f
  rcases transform with _ | t
  · exact absurd rfl h
  · rfl

/-- A frame without a transform of its own has the one of its datum, looked up by source and name, or the identity if there is none. -/
theorem C234_datum (lookup : String → String → Option Tr) (f : Frame) {s d : String} (ht : f.transform = none) (hs : f.source = some s) (hd : f.datum = some d) (h1 : s ≠ "") (h2 : d ≠ "") :
    (∀ t, lookup s d = some t → f.get lookup = t) ∧ (lookup s d = none → f.get lookup = identity) := by
  unfold Frame.get
  rw [ht, hs, hd]
  dsimp only
  rw [if_pos ⟨h1, h2⟩]
  exact ⟨fun t h => by rw [h]; rfl, fun h => by rw [h]; rfl⟩

/-- **C234, what does not.** A frame that takes its transform from a datum follows the datum, the frame that has been written and read does not any more. -/
theorem C234_frozen : ∃ (f f' : Frame) (before after : String → String → Option Tr), f.transform = none ∧ Frame.fromDict (f.toDict before) = .ok f' ∧ f'.source = f.source ∧ f'.datum = f.datum ∧
    f'.get before = f.get before ∧ f'.get after ≠ f.get after := by
  let t : Tr := [[1, 0, 0, 5], [0, 1, 0, 0], [0, 0, 1, 0], [0, 0, 0, 1]]
  refine ⟨{ name := "HORN", source := some "servo.json", datum := some "shaft" }, _, fun _ _ => some identity, fun _ _ => some t, rfl, frame_roundtrip _ _, rfl, rfl, rfl, ?_⟩
  decide +kernel

theorem type_roundtrip (t : JType) : JType.of t.value = .ok t := by cases t <;> rfl

theorem joint_roundtrip (j : Joint) : Joint.fromDict j.toDict = .ok j := by
  obtain ⟨name, type, base, axis, value, lo, hi⟩ := j
  unfold Joint.fromDict Joint.toDict
  simp [need, dflt, J.get, List.lookup, asStr, asNum, ok_bind, pure, Except.pure, type_roundtrip, ends]

theorem frames_map (lookup : String → String → Option Tr) (l : List (String × Frame)) :
    frames (l.map fun f => (f.1, f.2.toDict lookup)) = .ok (l.map fun f => (f.1, f.2.frozen lookup)) := by
  induction l with
  | nil => rfl
  | cons f l ih => rw [List.map_cons, frames, frame_roundtrip]; simp only [ih, List.map_cons]

theorem init_frames (p : Part) : "ORIGIN" ∈ p.init.frames.map (·.1) := by
  unfold Part.init
  split_ifs with h
  · exact h
  · simp

/-- **C235, the part that holds.** Every constructed part (it has a frame ORIGIN) is the same after writing and reading, except that frames that come from datums have become fixed
(`C234_frozen`); a part all of whose frames have transforms of their own is the same in everything: parent, joint with axis, value and limits, frames in order, geometry, color. -/
theorem C235_part_partial (lookup : String → String → Option Tr) (p : Part) (h : p.init = p) :
    Part.fromDict (p.toDict lookup) = .ok { p with frames := p.frames.map fun f => (f.1, f.2.frozen lookup) } ∧
    ((∀ f ∈ p.frames, f.2.transform ≠ none) → Part.fromDict (p.toDict lookup) = .ok p) := by
  have hor : "ORIGIN" ∈ p.frames.map (·.1) := by rw [← h]; exact init_frames p
  have main : Part.fromDict (p.toDict lookup) = .ok { p with frames := p.frames.map fun f => (f.1, f.2.frozen lookup) } := by
    obtain ⟨name, parent, pf, joint, fs, stl, printable, material, color, description⟩ := p
    unfold Part.fromDict Part.toDict
    have hi : ∀ q : Part, q.frames = fs.map (fun f => (f.1, f.2.frozen lookup)) → q.init = q := by
      intro q hq
      unfold Part.init
      rw [if_pos]
      rw [hq, List.map_map]
      exact hor
    rcases parent with _ | a <;> rcases stl with _ | b <;>
      simp [need, opt, dflt, J.get, List.lookup, ofOpt, asStr, asBool, asFrames, frames_map, joint_roundtrip, ok_bind, pure, Except.pure] <;> exact hi _ rfl
  refine ⟨main, fun hf => ?_⟩
  rw [main]
  have : p.frames.map (fun f => (f.1, f.2.frozen lookup)) = p.frames := by
    conv_rhs => rw [← List.map_id p.frames]
    apply List.map_congr_left
    intro f hm
    have := hf f hm
    obtain ⟨n, ⟨name, transform, source, datum, description⟩⟩ := f
    rcases transform with _ | t
    · exact absurd rfl this
    · rfl
  rw [this]

/-- a part with a joint and two frames -/
def arm : Part := Part.init { name := "ARM", parent := some "BASE", joint := { name := "j", type := .revolute, axis := [0, 1, 0], value := 30, lo := -90, hi := 90 }, frames := [("TIP", { name := "TIP", transform := some [[1, 0, 0, 100], [0, 1, 0, 0], [0, 0, 1, 0], [0, 0, 0, 1]] })] }

example : Part.fromDict (arm.toDict fun _ _ => none) = .ok arm := (C235_part_partial _ arm (by decide +kernel)).2 (by decide +kernel)

/-! ## C236: collision results -/

/-- **C236.** A collision result with any of the methods is the same after writing and reading; an unknown method is read as UNKNOWN. -/
theorem C236_result (r : Result) (h : r.method ∈ ["BREP", "MESH", "AABB", "FCL", "UNKNOWN"]) : Result.fromDict r.toDict = .ok r := by
  obtain ⟨a, b, collides, method, volume, depth, contacts, compatible, interfaces, message, metadata⟩ := r
  have h' : method ∈ methods := h
  unfold Result.fromDict Result.toDict
  rcases volume with _ | v <;>
    simp [need, opt, dflt, J.get, List.lookup, ofOpt, asStr, asNum, asBool, asNumss, asStrs, ok_bind, pure, Except.pure, h']

theorem C236_unknown (r : Result) (h : r.method ∉ ["BREP", "MESH", "AABB", "FCL", "UNKNOWN"]) : Result.fromDict r.toDict = .ok { r with method := "UNKNOWN" } := by
  obtain ⟨a, b, collides, method, volume, depth, contacts, compatible, interfaces, message, metadata⟩ := r
  have h' : ¬ method ∈ methods := h
  unfold Result.fromDict Result.toDict
  rcases volume with _ | v <;>
    simp [need, opt, dflt, J.get, List.lookup, ofOpt, asStr, asNum, asBool, asNumss, asStrs, ok_bind, pure, Except.pure, h']

/-! ## C237: provenance -/

/-- **C237 (records).** A provenance record is the same after writing and reading. -/
theorem C237_record (p : Prov) : Prov.fromDict p.toDict = .ok p := by
  obtain ⟨module, command, version, parameters, signature, timestamp, extra⟩ := p
  unfold Prov.fromDict Prov.toDict
  simp [dflt, J.get, List.lookup, asStr, asObj, ok_bind, pure, Except.pure]

/-- white space only -/
def Blank (l : List Char) : Prop := ∀ c ∈ l, isSpace c = true

theorem dropWhile_blank {w l : List Char} (h : Blank w) : (w ++ l).dropWhile isSpace = l.dropWhile isSpace := by
  induction w with
  | nil => rfl
  | cons c w ih =>
    rw [List.cons_append, List.dropWhile_cons, if_pos (h c (List.mem_cons_self ..))]
    exact ih fun d hd => h d (List.mem_cons_of_mem _ hd)

theorem strip_blank {w v l : List Char} (hw : Blank w) (hv : Blank v) : strip (w ++ l ++ v) = strip l := by
  unfold strip
  rw [List.append_assoc, dropWhile_blank hw]
  by_cases hl : Blank l
  · have h1 : (l ++ v).dropWhile isSpace = [] := by
      rw [List.dropWhile_eq_nil_iff]
      intro c hc
      rcases List.mem_append.mp hc with h | h
      · exact hl c h
      · exact hv c h
    have h2 : l.dropWhile isSpace = [] := by
      rw [List.dropWhile_eq_nil_iff]; exact hl
    rw [h1, h2]
  · have h1 : (l ++ v).dropWhile isSpace = l.dropWhile isSpace ++ v := by
      clear hv
      induction l with
      | nil => exact absurd (fun c hc => by cases hc) hl
      | cons c l ih =>
        rw [List.cons_append, List.dropWhile_cons, List.dropWhile_cons]
        by_cases hc : isSpace c = true
        · rw [if_pos hc, if_pos hc]
          apply ih
          intro hb
          apply hl
          intro d hd
          rcases List.mem_cons.mp hd with rfl | hd
          · exact hc
          · exact hb d hd
        · rw [if_neg hc, if_neg hc]; rfl
    rw [h1, List.reverse_append, dropWhile_blank (w := v.reverse)]
    intro c hc
    exact hv c (List.mem_reverse.mp hc)

/-- a text with other line ends: every `\n` replaced by `e` -/
def withEnds (e : List Char) (l : List Char) : List Char := l.flatMap fun c => if c = '\n' then e else [c]

theorem newlines_ends {l : List Char} (h : '\r' ∉ l) : newlines (withEnds ['\r', '\n'] l) = l ∧ newlines (withEnds ['\r'] l) = l ∧ newlines l = l := by
  induction l with
  | nil => exact ⟨rfl, rfl, rfl⟩
  | cons c l ih =>
    have hc : c ≠ '\r' := fun e => h (e ▸ List.mem_cons_self ..)
    obtain ⟨h1, h2, h3⟩ := ih fun hm => h (List.mem_cons_of_mem _ hm)
    have hn : ∀ {d : Char} {m : List Char}, d ≠ '\r' → newlines (d :: m) = d :: newlines m := by
      intro d m hd
      rw [newlines]
      · intro l' he _; exact hd he
      · exact hd
    by_cases hcn : c = '\n'
    · subst hcn
      refine ⟨?_, ?_, ?_⟩
      · rw [show withEnds ['\r', '\n'] ('\n' :: l) = '\r' :: '\n' :: withEnds ['\r', '\n'] l from rfl, newlines, h1]
      · rw [show withEnds ['\r'] ('\n' :: l) = '\r' :: withEnds ['\r'] l from rfl]
        rcases hw : withEnds ['\r'] l with _ | ⟨d, m⟩
        · rw [hw] at h2
          rw [show newlines [] = [] from rfl] at h2
          rw [← h2]; rfl
        · rw [hw] at h2
          have hd : d ≠ '\n' := by
            rintro rfl
            have : '\n' ∈ withEnds ['\r'] l := by rw [hw]; exact List.mem_cons_self ..
            unfold withEnds at this
            rw [List.mem_flatMap] at this
            obtain ⟨a, -, ha⟩ := this
            split_ifs at ha with e
            · simp at ha
            · rw [List.mem_singleton] at ha; exact e ha.symm
          rw [newlines, h2]
          intro l' he
          cases he
          exact hd rfl
      · rw [hn hc, h3]
    · refine ⟨?_, ?_, ?_⟩
      · rw [show withEnds ['\r', '\n'] (c :: l) = c :: withEnds ['\r', '\n'] l by simp [withEnds, hcn], hn hc, h1]
      · rw [show withEnds ['\r'] (c :: l) = c :: withEnds ['\r'] l by simp [withEnds, hcn], hn hc, h2]
      · rw [hn hc, h3]

/-- no white space at the ends -/
def Trim (l : List Char) : Prop := (∀ c ∈ l.head?, isSpace c = false) ∧ ∀ c ∈ l.getLast?, isSpace c = false

theorem strip_trim {l : List Char} (h : Trim l) : strip l = l := by
  obtain ⟨h1, h2⟩ := h
  unfold strip
  have e1 : l.dropWhile isSpace = l := by
    rcases l with _ | ⟨c, l⟩
    · rfl
    · rw [List.dropWhile_cons, if_neg]; rw [h1 c rfl]; exact Bool.false_ne_true
  rw [e1]
  have e2 : l.reverse.dropWhile isSpace = l.reverse := by
    rcases hl : l.reverse with _ | ⟨c, m⟩
    · rfl
    · rw [List.dropWhile_cons, if_neg]
      have : l.getLast? = some c := by rw [← List.head?_reverse, hl]; rfl
      rw [h2 c this]; exact Bool.false_ne_true
  rw [e2, List.reverse_reverse]

theorem trim_ends {l : List Char} (h : Trim l) (e : List Char) : Trim (withEnds e l) := by
  have key : ∀ c : Char, isSpace c = false → (if c = '\n' then e else [c]) = [c] := by
    intro c hc
    rw [if_neg]
    rintro rfl
    exact absurd hc (by decide)
  obtain ⟨h1, h2⟩ := h
  constructor
  · rcases l with _ | ⟨c, l⟩
    · exact h1
    · intro d hd
      have := h1 c rfl
      rw [withEnds, List.flatMap_cons, key c this] at hd
      cases hd
      exact this
  · rcases hl : l.getLast? with _ | c
    · rw [List.getLast?_eq_none_iff] at hl
      subst hl
      intro c hc
      cases hc
    · obtain ⟨m, rfl⟩ : ∃ m, l = m ++ [c] := List.getLast?_eq_some_iff.mp hl
      intro d hd
      have := h2 c hl
      rw [withEnds, List.flatMap_append, List.flatMap_cons, key c this, List.flatMap_nil, List.append_nil, List.getLast?_append] at hd
      simp at hd
      rw [← hd]; exact this

/-- **C237 (signatures).** White space before and after a source, and the kind of its line ends, do not matter for its signature; with a hash without collisions, the signatures of two
sources with `\n` line ends and without white space at their ends are equal only if the sources are. -/
theorem C237_signature (sha : String → String) (hsha : Function.Injective sha) :
    (∀ w s v : List Char, Blank w → Blank v → verify sha (String.ofList (w ++ s ++ v)) (signature sha (String.ofList s)) = true) ∧
    (∀ s : List Char, '\r' ∉ s → Trim s → verify sha (String.ofList (withEnds ['\r', '\n'] s)) (signature sha (String.ofList s)) = true ∧
      verify sha (String.ofList (withEnds ['\r'] s)) (signature sha (String.ofList s)) = true) ∧
    (∀ s t : List Char, '\r' ∉ s → '\r' ∉ t → Trim s → Trim t → verify sha (String.ofList s) (signature sha (String.ofList t)) = true → s = t) := by
  refine ⟨fun w s v hw hv => ?_, fun s hr ht => ⟨?_, ?_⟩, fun s t hs ht hts htt h => ?_⟩
  · unfold verify signature normal
    rw [String.toList_ofList, String.toList_ofList, strip_blank hw hv]
    exact beq_self_eq_true _
  · unfold verify signature normal
    rw [String.toList_ofList, String.toList_ofList, strip_trim ht, strip_trim (trim_ends ht _), (newlines_ends hr).1, (newlines_ends hr).2.2]
    exact beq_self_eq_true _
  · unfold verify signature normal
    rw [String.toList_ofList, String.toList_ofList, strip_trim ht, strip_trim (trim_ends ht _), (newlines_ends hr).2.1, (newlines_ends hr).2.2]
    exact beq_self_eq_true _
  · unfold verify signature normal at h
    rw [beq_iff_eq, String.toList_ofList, String.toList_ofList, strip_trim hts, strip_trim htt, (newlines_ends hs).2.2, (newlines_ends ht).2.2] at h
    have h2 : ∀ a b : String, "sha256:" ++ a = "sha256:" ++ b → a = b := by
      intro a b e
      have := congrArg String.toList e
      rw [String.toList_append, String.toList_append] at this
      exact String.toList_inj.mp (List.append_cancel_left this)
    have := hsha (h2 _ _ h)
    have := congrArg String.toList this
    rwa [String.toList_ofList, String.toList_ofList] at this

/-- The signature in the record of every source that is not empty is accepted for that source; the record of an empty source has an empty signature, which is not accepted for it. -/
theorem C237_created (sha : String → String) : (∀ s, s ≠ "" → verify sha s (created sha s) = true) ∧ verify sha "" (created sha "") = false := by
  refine ⟨fun s hs => ?_, ?_⟩
  · unfold verify created
    rw [if_neg hs]
    exact beq_self_eq_true _
  · unfold verify created signature
    rw [if_pos rfl]
    rw [beq_eq_false_iff_ne]
    intro h
    have := congrArg String.toList h
    rw [String.toList_append] at this
    cases this

/-! ## C238: the viewer's configuration -/

theorem colors_map (l : List (String × List ℚ)) : colors (l.map fun k => (k.1, ofNums k.2)) = .ok l := by
  induction l with
  | nil => rfl
  | cons f l ih => rw [List.map_cons, colors, asNums_of]; simp only [ih]

/-- **C238 (records).** A configuration that is written and read again uses the same files and directories and has the same colors, and is written as the same dictionary. -/
theorem C238_config (join : String → String) (c : Config) (h : join c.stlDir ≠ "") :
    ∃ c', Config.fromDict (c.toDict join) = .ok c' ∧ c'.stlDir = c.stlDir ∧ path c'.positions = path c.positions ∧ path c'.command = path c.command ∧
      c'.screenshotPath join = c.screenshotPath join ∧ c'.palette = c.palette ∧ c'.defaultColor = c.defaultColor ∧ c'.toDict join = c.toDict join := by
  have hs : c.screenshotPath join ≠ "" := by
    unfold Config.screenshotPath path
    rcases c.screenshots with _ | s
    · exact h
    · split_ifs with e
      · exact h
      · intro hc; exact e (congrArg some hc)
  have hp : ∀ s, path (path s) = path s := by
    intro s; unfold path; split_ifs <;> simp_all
  have hopt : ∀ s, opt asStr (.obj [("k", ofOpt .str (path s))]) "k" = .ok (path s) := by
    intro s
    rcases path s with _ | t <;> simp [opt, J.get, List.lookup, ofOpt, asStr]
  refine ⟨{ stlDir := c.stlDir, positions := path c.positions, command := path c.command, screenshots := some (c.screenshotPath join), defaultColor := c.defaultColor, palette := c.palette }, ?_, rfl, hp _, hp _, ?_, rfl, rfl, ?_⟩
  · unfold Config.fromDict Config.toDict
    rcases path c.positions with _ | a <;> rcases path c.command with _ | b <;>
      simp [need, opt, dflt, J.get, List.lookup, ofOpt, asStr, asColors, colors_map, ok_bind, pure, Except.pure]
  · unfold Config.screenshotPath
    dsimp only
    rw [show path (some ((path c.screenshots).getD (join c.stlDir))) = some ((path c.screenshots).getD (join c.stlDir)) from ?_]
    · rfl
    · unfold path at hs ⊢
      rw [if_neg]
      intro hc
      exact hs (Option.some.inj hc)
  · unfold Config.toDict
    dsimp only
    rw [hp, hp]
    have hq : ∀ c' : Config, c'.screenshots = some (c.screenshotPath join) → c'.screenshotPath join = c.screenshotPath join := by
      intro c' e
      unfold Config.screenshotPath at hs ⊢
      rw [e]
      unfold Config.screenshotPath
      rw [show path (some ((path c.screenshots).getD (join c.stlDir))) = some ((path c.screenshots).getD (join c.stlDir)) from ?_]
      · rfl
      · unfold path at hs ⊢
        rw [if_neg]
        intro hc
        exact hs (Option.some.inj hc)
    rw [hq _ rfl]

/-- **C238 (colors), the part that holds.** If all names of the palette are in lower case, a color is found whatever the case of its name. -/
theorem C238_color_partial (lower : String → String) (hl : ∀ s, lower (lower s) = lower s) (c : Config) (hk : ∀ k ∈ c.palette, lower k.1 = k.1) (n m : String) (h : lower n = lower m) :
    c.color lower n = c.color lower m ∧ (∀ k ∈ c.palette, lower k.1 = lower n → (c.palette.map (·.1)).Nodup → c.color lower n = k.2) := by
  refine ⟨by unfold Config.color; rw [h], fun k hkm he hnd => ?_⟩
  unfold Config.color
  rw [← he, hk k hkm]
  have : c.palette.lookup k.1 = some k.2 := by
    generalize c.palette = l at hkm hnd
    induction l with
    | nil => cases hkm
    | cons x l ih =>
      rw [List.map_cons, List.nodup_cons] at hnd
      rcases List.mem_cons.mp hkm with rfl | hm
      · rw [List.lookup_cons, beq_self_eq_true]
      · have hne : k.1 ≠ x.1 := fun e => hnd.1 (e ▸ List.mem_map_of_mem hm)
        rw [List.lookup_cons, beq_eq_false_iff_ne.mpr hne]
        exact ih hm hnd.2
  rw [this]
  rfl

/-- **C238, what does not.** A color whose name has a capital letter is never found, not even under that name: the default color is returned. -/
theorem C238_capital (lower : String → String) (hl : lower "Red" = "red") : ∃ c : Config, c.palette.lookup "Red" = some [1, 0, 0] ∧ c.color lower "Red" = c.defaultColor ∧ c.defaultColor ≠ [1, 0, 0] := by
  refine ⟨{ stlDir := "d", palette := [("Red", [1, 0, 0])] }, by simp, ?_, by decide +kernel⟩
  unfold Config.color
  rw [hl]
  rfl

/-! ## C239, C240: sidecars -/

theorem stem_plain {x e : List Char} (hx : '.' ∉ x) (he : e ≠ []) (he2 : '.' ∉ e) (hne : x ≠ []) : stem (x ++ '.' :: e) = x := by
  unfold stem
  have h1 : (x ++ '.' :: e).getLast? ≠ some '.' := by
    rw [List.getLast?_append, List.getLast?_cons]
    rcases hl : e.getLast? with _ | c
    · rw [List.getLast?_eq_none_iff] at hl; exact absurd hl he
    · simp only [Option.getD_some, Option.some_or, ne_eq, Option.some.injEq]
      rintro rfl
      exact he2 (List.mem_of_getLast? hl)
  rw [if_neg h1]
  have h2 : ∀ y, (x ++ '.' :: y).takeWhile (· = '.') = [] ∧ (x ++ '.' :: y).dropWhile (· = '.') = x ++ '.' :: y := by
    intro y
    rcases x with _ | ⟨c, x⟩
    · exact absurd rfl hne
    · have hc : c ≠ '.' := fun e => hx (e ▸ List.mem_cons_self ..)
      simp [hc]
  rw [(h2 e).1, (h2 e).2, List.nil_append, List.takeWhile_append_of_pos]
  · simp
  · intro c hc
    simp only [decide_eq_true_eq]
    rintro rfl
    exact hx hc

/-- **C239, the part that holds.** The sidecar of a file with a name of one part and an extension (both without further dots) is the name with `.meta.yaml`, so that two such files have the same sidecar
exactly if they differ at most in the extension (`part.step` and `part.stl`). -/
theorem C239_sidecar_partial {x y e f : List Char} (hx : '.' ∉ x) (hy : '.' ∉ y) (he : '.' ∉ e) (hf : '.' ∉ f) (hx0 : x ≠ []) (hy0 : y ≠ []) (he0 : e ≠ []) (hf0 : f ≠ []) :
    sidecar (String.ofList (x ++ '.' :: e)) = String.ofList x ++ ".meta.yaml" ∧
    (sidecar (String.ofList (x ++ '.' :: e)) = sidecar (String.ofList (y ++ '.' :: f)) ↔ x = y) := by
  have h1 : sidecar (String.ofList (x ++ '.' :: e)) = String.ofList x ++ ".meta.yaml" := by
    unfold sidecar; rw [String.toList_ofList, stem_plain hx he0 he hx0]
  have h2 : sidecar (String.ofList (y ++ '.' :: f)) = String.ofList y ++ ".meta.yaml" := by
    unfold sidecar; rw [String.toList_ofList, stem_plain hy hf0 hf hy0]
  refine ⟨h1, ?_⟩
  rw [h1, h2]
  constructor
  · intro h
    have := congrArg String.toList h
    simp only [String.toList_append, String.toList_ofList] at this
    exact List.append_cancel_right this
  · rintro rfl; rfl

/-- **C239, what does not.** Versions in the name are taken for extensions: two different parts have the same sidecar, so that writing the second overwrites the metadata of the first. -/
theorem C239_same_sidecar : sidecar "bolt.v1.step" = "bolt.meta.yaml" ∧ sidecar "bolt.v2.step" = "bolt.meta.yaml" ∧ sidecar "plate_2.5mm.stl" = sidecar "plate_2.7mm.stl" := by
  refine ⟨?_, ?_, ?_⟩ <;> decide +kernel

theorem lookup_put (d : List (String × J)) (k k' : String) (v : J) : (put d k v).lookup k' = if k' = k then some v else d.lookup k' := by
  unfold put
  by_cases hk : k ∈ d.map (·.1)
  · rw [if_pos hk]
    induction d with
    | nil => cases hk
    | cons x d ih =>
      rw [List.map_cons, List.lookup_cons, List.lookup_cons]
      by_cases hx : x.1 = k
      · subst hx
        simp only [if_true]
        by_cases h' : k' = x.1
        · subst h'; simp
        · rw [beq_eq_false_iff_ne.mpr h', if_neg h']
          dsimp only
          by_cases hm : x.1 ∈ d.map (·.1)
          · rw [ih hm, if_neg h']
          · have : d.map (fun y => if y.1 = x.1 then (x.1, v) else y) = d := by
              conv_rhs => rw [← List.map_id d]
              apply List.map_congr_left
              intro y hy
              rw [if_neg]
              · rfl
              · intro e; exact hm (e ▸ List.mem_map_of_mem hy)
            rw [this]
      · rw [if_neg hx]
        have hm : k ∈ d.map (·.1) := by
          rcases List.mem_cons.mp hk with e | h
          · exact absurd e.symm hx
          · exact h
        rw [ih hm]
        by_cases h' : k' = x.1
        · subst h'; simp [hx]
        · rw [beq_eq_false_iff_ne.mpr h']
  · rw [if_neg hk, List.lookup_append]
    by_cases h' : k' = k
    · subst h'
      rw [if_pos rfl]
      have : d.lookup k' = none := by
        rw [List.lookup_eq_none_iff]
        intro x hx
        rw [bne_iff_ne]
        intro e
        exact hk (e ▸ List.mem_map_of_mem hx)
      rw [this]
      simp
    · rw [if_neg h']
      have : List.lookup k' [(k, v)] = none := by
        rw [List.lookup_cons, beq_eq_false_iff_ne.mpr h']; rfl
      rw [this, Option.or_none]

theorem lookup_without (d : List (String × J)) (k k' : String) : (without d k).lookup k' = if k' = k then none else d.lookup k' := by
  unfold without
  induction d with
  | nil => simp
  | cons x d ih =>
    rw [List.filter_cons]
    by_cases hx : x.1 = k
    · rw [if_neg (by simpa using hx), ih, List.lookup_cons]
      by_cases h' : k' = k
      · rw [if_pos h', if_pos h']
      · rw [if_neg h', if_neg h', beq_eq_false_iff_ne.mpr (by rw [hx]; exact h')]
    · rw [if_pos (by simpa using hx), List.lookup_cons, List.lookup_cons, ih]
      by_cases h' : k' = x.1
      · subst h'; simp [hx]
      · rw [beq_eq_false_iff_ne.mpr h']

theorem lookup_update (d e : List (String × J)) (k : String) (hn : (e.map (·.1)).Nodup) : (update d e).lookup k = (e.lookup k).or (d.lookup k) := by
  unfold update
  induction e generalizing d with
  | nil => simp
  | cons x e ih =>
    rw [List.map_cons, List.nodup_cons] at hn
    rw [List.foldl_cons, ih _ hn.2, lookup_put, List.lookup_cons]
    by_cases h : k = x.1
    · subst h
      have : e.lookup x.1 = none := by
        rw [List.lookup_eq_none_iff]
        intro y hy
        rw [bne_iff_ne]
        intro e'
        exact hn.1 (e' ▸ List.mem_map_of_mem hy)
      simp [this]
    · rw [if_neg h, beq_eq_false_iff_ne.mpr h]

theorem nodup_put {d : List (String × J)} (h : (d.map (·.1)).Nodup) (k : String) (v : J) : ((put d k v).map (·.1)).Nodup := by
  unfold put
  split_ifs with hk
  · rw [List.map_map]
    have : ((·.1) ∘ fun x : String × J => if x.1 = k then (k, v) else x) = (·.1) := by
      funext x
      simp only [Function.comp]
      split_ifs with e
      · exact e.symm
      · rfl
    rw [this]
    exact h
  · rw [List.map_append, List.map_cons, List.map_nil, List.nodup_append]
    refine ⟨h, by simp, ?_⟩
    intro a ha b hb
    rw [List.mem_singleton] at hb
    rintro rfl
    have e : a = k := hb
    exact hk (e ▸ ha)

theorem nodup_without {d : List (String × J)} (h : (d.map (·.1)).Nodup) (k : String) : ((without d k).map (·.1)).Nodup :=
  h.sublist (List.Sublist.map _ List.filter_sublist)

/-- the loop that moves the keys: what is in the two dictionaries together does not change -/
theorem moved (ks : List String) (hk : "_provenance" ∉ ks) (s : List (String × J) × List (String × J)) (h2 : (s.2.map (·.1)).Nodup) :
    let r := ks.foldl (fun (s : List (String × J) × List (String × J)) k =>
      match s.2.lookup k with
      | some v => (put s.1 k v, without s.2 k)
      | none => s) s
    (r.2.map (·.1)).Nodup ∧ r.2.lookup "_provenance" = s.2.lookup "_provenance" ∧ (∀ k, (r.2.lookup k).or (r.1.lookup k) = (s.2.lookup k).or (s.1.lookup k)) := by
  induction ks generalizing s with
  | nil => exact ⟨h2, rfl, fun _ => rfl⟩
  | cons x ks ih =>
    intro r
    simp only [r, List.foldl_cons]
    have hx : "_provenance" ≠ x := fun e => hk (e ▸ List.mem_cons_self ..)
    have hks : "_provenance" ∉ ks := fun h => hk (List.mem_cons_of_mem _ h)
    rcases e : s.2.lookup x with _ | v
    · dsimp only
      obtain ⟨a, b, c⟩ := ih hks s h2
      exact ⟨a, b, c⟩
    · dsimp only
      obtain ⟨a, b, c⟩ := ih hks (put s.1 x v, without s.2 x) (nodup_without h2 x)
      refine ⟨a, ?_, fun k => ?_⟩
      · rw [b, lookup_without, if_neg hx]
      · rw [c k]
        dsimp only
        rw [lookup_without, lookup_put]
        by_cases h : k = x
        · subst h; rw [if_pos rfl, if_pos rfl, e]; rfl
        · rw [if_neg h, if_neg h]

/-- **C240.** The sidecar has every entry of the metadata with its value, and the record of the provenance under `_provenance` (which replaces an entry of that name), and nothing else. -/
theorem C240_content (m : List (String × J)) (hm : (m.map (·.1)).Nodup) (p : J) (k : String) :
    (content m p).lookup k = if k = "_provenance" then some p else m.lookup k := by
  obtain ⟨h1, h2, h3⟩ := moved ["schema", "entityId", "timestamp", "tags", "layer"] (by decide) ([], put m "_provenance" p) (nodup_put hm _ _)
  unfold content
  dsimp only at h1 h2 h3 ⊢
  generalize List.foldl _ _ _ = r at *
  obtain ⟨o, out⟩ := r
  dsimp only at *
  rw [lookup_put, if_pos rfl] at h2
  rw [lookup_update _ _ _ (nodup_without h1 _), lookup_without, lookup_put, h2]
  have := h3 k
  rw [lookup_put] at this
  by_cases hk : k = "_provenance"
  · rw [if_pos hk, if_pos hk, if_pos hk]; rfl
  · rw [if_neg hk, if_neg hk, if_neg hk]
    rw [if_neg hk] at this
    rw [this]
    simp

example : (content [("tags", .arr []), ("material", .str "steel"), ("schema", .str "v1")] .null).map (·.1) = ["schema", "tags", "_provenance", "material"] := by decide +kernel

end Verif.Record
