import Verif.Catalog.Search

/-! # Sizes, tolerance classes, bolts and nuts (C321, C322) -/

namespace Verif.Catalog

/-! ## specification -/

/-- the spellings tried, in order -/
def spellings (upper lower : String → String) (size : String) : List String := [size, upper size, lower size]

/-- the size is in the table under the first spelling that is there -/
def SizeIs (upper lower : String → String) (sizes : List (String × Y)) (size : String) (v : Y) : Prop :=
  ∃ before k after, spellings upper lower size = before ++ k :: after ∧ (∀ x ∈ before, get sizes x = none) ∧ get sizes k = some v

/-- the entry of a dictionary that is empty if it is not there -/
def TableIs (d : List (String × Y)) (k : String) (t : List (String × Y)) : Prop := get d k = some (.dict t) ∨ get d k = none ∧ t = []

theorem asDict_ok {y : Y} {d : List (String × Y)} : asDict y = .ok d ↔ y = .dict d := by
  cases y <;> simp [asDict]

theorem table {d : List (String × Y)} {k : String} {t : List (String × Y)} : asDict ((get d k).getD (.dict [])) = .ok t ↔ TableIs d k t := by
  rw [asDict_ok]
  unfold TableIs
  cases get d k with
  | none => simp [eq_comm]
  | some y => simp

theorem bind_ok {α β : Type} {x : Except String α} {f : α → Except String β} {b : β} : (x >>= f) = .ok b ↔ ∃ a, x = .ok a ∧ f a = .ok b := by
  cases x with
  | error e =>
    constructor
    · intro h; cases h
    · rintro ⟨_, h, _⟩; cases h
  | ok a =>
    constructor
    · intro h; exact ⟨a, rfl, h⟩
    · rintro ⟨a', h, h'⟩; cases h; exact h'

theorem sizeOf_ok {upper lower : String → String} {sizes : List (String × Y)} {size : String} {d : List (String × Y)} : sizeOf upper lower sizes size = .ok d ↔ SizeIs upper lower sizes size (.dict d) := by
  unfold sizeOf SizeIs spellings
  have l0 : ∀ (x : String) (b : List String) (k : String) (a : List String), [size, upper size, lower size] = b ++ k :: a ↔
      (b = [] ∧ k = size ∧ a = [upper size, lower size]) ∨ (b = [size] ∧ k = upper size ∧ a = [lower size]) ∨ (b = [size, upper size] ∧ k = lower size ∧ a = []) := by
    intro _ b k a
    rcases b with _ | ⟨b1, _ | ⟨b2, _ | ⟨b3, b⟩⟩⟩ <;> simp <;> grind
  cases h1 : get sizes size with
  | some v =>
    dsimp only
    rw [asDict_ok]
    constructor
    · rintro rfl; exact ⟨[], size, _, rfl, by simp, h1⟩
    · rintro ⟨b, k, a, h, hb, hk⟩
      rcases (l0 "" b k a).1 h with ⟨rfl, rfl, -⟩ | ⟨rfl, -, -⟩ | ⟨rfl, -, -⟩
      · rw [h1] at hk; cases hk; rfl
      · rw [hb size (by simp)] at h1; cases h1
      · rw [hb size (by simp)] at h1; cases h1
  | none =>
    dsimp only
    cases h2 : get sizes (upper size) with
    | some v =>
      dsimp only
      rw [asDict_ok]
      constructor
      · rintro rfl; exact ⟨[size], upper size, _, rfl, by simpa using h1, h2⟩
      · rintro ⟨b, k, a, h, hb, hk⟩
        rcases (l0 "" b k a).1 h with ⟨rfl, rfl, -⟩ | ⟨rfl, rfl, -⟩ | ⟨rfl, -, -⟩
        · rw [h1] at hk; cases hk
        · rw [h2] at hk; cases hk; rfl
        · rw [hb (upper size) (by simp)] at h2; cases h2
    | none =>
      dsimp only
      cases h3 : get sizes (lower size) with
      | some v =>
        dsimp only
        rw [asDict_ok]
        constructor
        · rintro rfl; exact ⟨[size, upper size], lower size, _, rfl, by simp [h1, h2], h3⟩
        · rintro ⟨b, k, a, h, hb, hk⟩
          rcases (l0 "" b k a).1 h with ⟨rfl, rfl, -⟩ | ⟨rfl, rfl, -⟩ | ⟨rfl, rfl, -⟩
          · rw [h1] at hk; cases hk
          · rw [h2] at hk; cases hk
          · rw [h3] at hk; cases hk; rfl
      | none =>
        dsimp only
        constructor
        · intro h; exact nomatch h
        · rintro ⟨b, k, a, h, hb, hk⟩
          rcases (l0 "" b k a).1 h with ⟨rfl, rfl, -⟩ | ⟨rfl, rfl, -⟩ | ⟨rfl, rfl, -⟩
          · rw [h1] at hk; cases hk
          · rw [h2] at hk; cases hk
          · rw [h3] at hk; cases hk

/-- C321: the data of a size are those under its name in the catalog, else under the name in capitals, else in small letters; a tolerance class asked for must be among those of the size, except the empty text; otherwise there is an error -/
theorem C321_size (upper lower : String → String) (catalog : List (String × Y)) (size : String) (cls : Option String) (d : List (String × Y)) :
    threadData upper lower catalog size cls = .ok d ↔ ∃ sizes, TableIs catalog "sizes" sizes ∧ SizeIs upper lower sizes size (.dict d) ∧
      ∀ c, cls = some c → c ≠ "" → ∃ t v, TableIs d "tolerances" t ∧ get t c = some v := by
  unfold threadData
  rw [bind_ok]
  apply exists_congr
  intro sizes
  rw [table]
  apply and_congr_right
  intro _
  rw [bind_ok]
  constructor
  · rintro ⟨d', hd', h⟩
    cases cls with
    | none =>
      unfold checkClass at h
      cases h
      exact ⟨sizeOf_ok.1 hd', fun c hc => nomatch hc⟩
    | some c =>
      unfold checkClass at h
      dsimp only at h
      split at h
      · rename_i hc
        cases h
        exact ⟨sizeOf_ok.1 hd', fun c' hc' hne => absurd (by cases hc'; exact hc) hne⟩
      · obtain ⟨t, ht, h⟩ := bind_ok.1 h
        cases hg : get t c with
        | none => rw [hg] at h; cases h
        | some v =>
          rw [hg] at h
          cases h
          refine ⟨sizeOf_ok.1 hd', fun c' hc' _ => ?_⟩
          cases hc'
          exact ⟨t, v, table.1 ht, hg⟩
  · rintro ⟨hd, hc⟩
    refine ⟨d, sizeOf_ok.2 hd, ?_⟩
    cases cls with
    | none => rfl
    | some c =>
      unfold checkClass
      dsimp only
      split
      · rfl
      · rename_i hne
        obtain ⟨t, v, ht, hg⟩ := hc c rfl hne
        rw [bind_ok]
        refine ⟨t, table.2 ht, ?_⟩
        rw [hg]

/-- C322: what is returned for a bolt or a nut: diameter and pitch of the size, the tolerances of the class asked for, and the head or the body; it is returned exactly if the size, the class, the diameter, the pitch and the part are there -/
theorem C322_hardware (upper lower : String → String) (part : String) (internal : Bool) (catalog : List (String × Y)) (size cls : String) (h : Hardware) :
    hardware upper lower part internal catalog size cls = .ok h ↔ ∃ d t, threadData upper lower catalog size (some cls) = .ok d ∧ TableIs d "tolerances" t ∧ get d part = some h.body ∧ get d "nominal_diameter" = some h.diameter ∧
      get d "pitch" = some h.pitch ∧ h.minor = get d "basic_minor_diameter" ∧ h.pitchDiameter = get d "basic_pitch_diameter" ∧ h.toleranceClass = cls ∧ h.internal = internal ∧
      (get t cls = some h.tolerances ∨ get t cls = none ∧ h.tolerances = .dict []) := by
  have item_ok : ∀ (d : List (String × Y)) (k : String) (v : Y), item d k = .ok v ↔ get d k = some v := by
    intro d k v
    unfold item
    cases get d k <;> simp
  unfold hardware
  rw [bind_ok]
  apply exists_congr
  intro d
  constructor
  · rintro ⟨hd, h'⟩
    obtain ⟨b, hb, h'⟩ := bind_ok.1 h'
    obtain ⟨t, ht, h'⟩ := bind_ok.1 h'
    obtain ⟨x, hx, h'⟩ := bind_ok.1 h'
    obtain ⟨p, hp, h'⟩ := bind_ok.1 h'
    cases h'
    refine ⟨t, hd, table.1 ht, (item_ok _ _ _).1 hb, (item_ok _ _ _).1 hx, (item_ok _ _ _).1 hp, rfl, rfl, rfl, rfl, ?_⟩
    dsimp only
    cases get t cls <;> simp
  · rintro ⟨t, hd, ht, hb, hx, hp, h1, h2, h3, h4, h5⟩
    refine ⟨hd, bind_ok.2 ⟨h.body, (item_ok _ _ _).2 hb, bind_ok.2 ⟨t, table.2 ht, bind_ok.2 ⟨_, (item_ok _ _ _).2 hx, bind_ok.2 ⟨_, (item_ok _ _ _).2 hp, ?_⟩⟩⟩⟩⟩
    congr 1
    obtain ⟨a, b, c, e, f, g, i, j⟩ := h
    dsimp only at h1 h2 h3 h4 h5 ⊢
    subst h1 h2 h3 h4
    rcases h5 with h5 | ⟨h5, h6⟩
    · rw [h5]; rfl
    · rw [h5, h6]; rfl

/-- C322: with a class, the tolerances are those of this class -/
theorem C322_class (upper lower : String → String) (part : String) (internal : Bool) (catalog : List (String × Y)) (size cls : String) (hc : cls ≠ "") (h : Hardware)
    (hh : hardware upper lower part internal catalog size cls = .ok h) : ∃ d t, threadData upper lower catalog size (some cls) = .ok d ∧ TableIs d "tolerances" t ∧ get t cls = some h.tolerances := by
  obtain ⟨d, t, hd, ht, -, -, -, -, -, -, -, h5⟩ := (C322_hardware upper lower part internal catalog size cls h).1 hh
  refine ⟨d, t, hd, ht, ?_⟩
  obtain ⟨-, -, -, h6⟩ := (C321_size upper lower catalog size (some cls) d).1 hd
  obtain ⟨t', v, ht', hv⟩ := h6 cls rfl hc
  have : t' = t := by
    rcases ht with ht | ⟨ht, rfl⟩ <;> rcases ht' with ht' | ⟨ht', rfl⟩
    · rw [ht] at ht'; cases ht'; rfl
    · rw [ht] at ht'; cases ht'
    · rw [ht] at ht'; cases ht'
    · rfl
  subst this
  exact h5.resolve_right fun h => by rw [hv] at h; exact nomatch h.1

/-- letters of the Latin alphabet made capital, or small -/
def capital (s : String) : String := String.ofList (s.toList.map Char.toUpper)
@[inherit_doc capital] def small (s : String) : String := String.ofList (s.toList.map Char.toLower)

/-- C321: so capitals do not matter only if the name in the catalog has no small letters, or no capitals: a name like `M8x1`, as fine threads have, is not found as `m8x1` -/
theorem C321_mixed : threadData capital small [("sizes", .dict [("M8x1", .dict [])])] "m8x1" none = .error "KeyError" ∧
    threadData capital small [("sizes", .dict [("M8", .dict [])])] "m8" none = .ok [] := by
  constructor
  · have h1 : capital "m8x1" = "M8X1" := by decide +kernel
    have h2 : small "m8x1" = "m8x1" := by decide +kernel
    simp [threadData, get, asDict, sizeOf, h1, h2, bind, Except.bind]
  · have h1 : capital "m8" = "M8" := by decide +kernel
    simp [threadData, checkClass, get, asDict, sizeOf, h1, bind, Except.bind]

/-- C322: the class used if none is given, `6g`, is not one of the unified threads: asking for a bolt of such a size without a class fails -/
theorem C322_default (upper lower : String → String) (catalog : List (String × Y)) (size : String) (part : String) (internal : Bool)
    (h : ∀ d, threadData upper lower catalog size none = .ok d → ∃ t, get d "tolerances" = some (.dict t) ∧ get t "6g" = none) : ∀ x, hardware upper lower part internal catalog size "6g" ≠ .ok x := by
  intro x hx
  obtain ⟨d, t, hd, ht, hg⟩ := C322_class upper lower part internal catalog size "6g" (by decide) x hx
  obtain ⟨sizes, h1, h2, -⟩ := (C321_size upper lower catalog size (some "6g") d).1 hd
  obtain ⟨t', ht', hn⟩ := h d ((C321_size upper lower catalog size none d).2 ⟨sizes, h1, h2, fun c hc => nomatch hc⟩)
  rcases ht with ht | ⟨ht, rfl⟩
  · rw [ht] at ht'
    cases ht'
    rw [hn] at hg
    cases hg
  · rw [ht] at ht'
    cases ht'

/-- a catalog with one unified size: C321 finds it, and the hypothesis of `C322_default` holds -/
example : let bolt : List (String × Y) := [("nominal_diameter", .other 6), ("pitch", .other 1), ("tolerances", .dict [("2A", .dict [])]), ("hex_bolt", .dict [])]
    let c : List (String × Y) := [("sizes", .dict [("1/4-20", .dict bolt)])]
    threadData capital small c "1/4-20" none = .ok bolt ∧ (∀ d, threadData capital small c "1/4-20" none = .ok d → ∃ t, get d "tolerances" = some (.dict t) ∧ get t "6g" = none) ∧
      ∃ h, hardware capital small "hex_bolt" false c "1/4-20" "2A" = .ok h ∧ h.tolerances = .dict [] := by
  intro bolt c
  have h1 : threadData capital small c "1/4-20" none = .ok bolt := by simp [threadData, checkClass, c, get, asDict, sizeOf, bind, Except.bind]
  refine ⟨h1, ?_, ⟨.other 6, .other 1, none, none, "2A", .dict [], false, .dict []⟩, ?_, rfl⟩
  · intro d hd
    rw [h1] at hd
    cases hd
    exact ⟨[("2A", .dict [])], by simp [bolt, get], by simp [get]⟩
  · rw [C322_hardware]
    refine ⟨bolt, [("2A", .dict [])], ?_, by simp [TableIs, bolt, get], by simp [bolt, get], by simp [bolt, get], by simp [bolt, get], by simp [bolt, get], by simp [bolt, get], rfl, rfl, by simp [get]⟩
    simp [threadData, checkClass, c, bolt, get, asDict, sizeOf, bind, Except.bind]

end Verif.Catalog
