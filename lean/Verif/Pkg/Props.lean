import Verif.Pkg.Validate

/-!
# Packages: C30 (validation verdict), C32 (signing does not disturb what is signed), C33 (verification verdict),
C86–C92 below
-/

namespace Verif.Pkg

open Verif.Dict
variable {K : Type}

/-! ### C30 -/

section
variable [LinearOrder K] [Zero K] [One K]

theorem primaryEntry_ok {data d : Doc K} {path : String} (h : primaryEntry data = .ok (d, path)) :
    ∃ g, dget data "geometry" = some (.dict g) ∧ dget g "primary" = some (.dict d) ∧ dget d "path" = some (.str path) := by
  unfold primaryEntry vgetDict at h
  simp only [vget] at h
  cases hg : dget data "geometry" with
  | none => rw [hg] at h; simp [dget] at h
  | some g =>
    rw [hg] at h
    simp only [Option.getD_some] at h
    cases g with
    | dict g =>
      simp only at h
      cases hp : dget g "primary" with
      | none => rw [hp] at h; simp at h
      | some prim =>
        rw [hp] at h
        simp only at h
        by_cases ht : prim.truthy = true
        swap
        · rw [if_pos ht] at h; cases h
        · rw [if_neg (not_not.mpr ht)] at h
          cases prim with
          | dict d' =>
            simp only at h
            cases hpath : dget d' "path" with
            | none => rw [hpath] at h; cases h
            | some pv =>
              rw [hpath] at h
              cases pv with
              | str s =>
                simp only [asPath, Except.ok.injEq, Prod.mk.injEq] at h
                obtain ⟨rfl, rfl⟩ := h
                exact ⟨g, rfl, hp, hpath⟩
              | _ => simp [asPath] at h
          | _ => cases h
    | _ => cases h

theorem primaryEntry_of {data g d : Doc K} {path : String} (h1 : dget data "geometry" = some (.dict g))
    (h2 : dget g "primary" = some (.dict d)) (h3 : dget d "path" = some (.str path)) : primaryEntry data = .ok (d, path) := by
  unfold primaryEntry vgetDict
  simp only [vget, h1, Option.getD_some, h2]
  have : ¬ ¬ (Val.dict d : Val K).truthy = true := by
    cases d with
    | nil => simp [dget] at h3
    | cons e d => simp [Val.truthy]
  rw [if_neg this]
  simp only [h3, asPath]

theorem says_primary (D : Digest) (loads : Content → Bool) (p : Pkg K) (d : Doc K) (path : String)
    (h : primaryEntry p.data = .ok (d, path)) : Says (checkPrimary D loads p d path) (PrimaryOk D loads p) := by
  obtain ⟨g, h1, h2, h3⟩ := primaryEntry_ok h
  have hiff : PrimaryOk D loads p ↔ FileOk D p path (dget d "hash") ∧ ∃ c, p.file path = some c ∧ loads c = true := by
    constructor
    · rintro ⟨g', d', path', c, k1, k2, k3, k4, k5, k6⟩
      rw [h1] at k1; cases k1
      rw [h2] at k2; cases k2
      rw [h3] at k3; cases k3
      exact ⟨k4, c, k5, k6⟩
    · rintro ⟨k4, c, k5, k6⟩
      exact ⟨g, d, path, c, h1, h2, h3, k4, k5, k6⟩
  refine says_congr ?_ hiff.symm
  have hf := says_checkFile D p path (dget d "hash")
  unfold checkPrimary
  cases hc : checkFile D (p.file path) (dget d "hash") with
  | error e => exact says_error
  | ok r =>
    obtain ⟨ok, m⟩ := r
    have hf := hf ok m hc
    cases ok with
    | false =>
      simp only
      refine says_ok_false ?_ ?_
      · intro hh
        have := hf.1.mpr hh.1
        simp at this
      · have := hf.2
        simpa using this
    | true =>
      simp only
      have hF := hf.1.mp rfl
      have hm := hf.2.mp rfl
      cases hfile : p.file path with
      | none =>
        exfalso
        obtain ⟨c, hc, _⟩ := hF
        rw [hfile] at hc
        cases hc
      | some c =>
        simp only
        split_ifs with hl
        · exact says_ok_true ⟨hF, c, rfl, hl⟩ hm
        · refine says_ok_false ?_ ⟨(Sev.error, "invalid geometry JSON"), by simp, rfl⟩
          rintro ⟨_, c', h4, h5⟩
          cases h4
          exact hl h5

theorem says_schema (data : Doc K) : Says (schemaCheck data) (dget data "schema" = some (.str "ycpkg-spec-v0.1")) := by
  unfold schemaCheck
  have : schemaOk data = true ↔ dget data "schema" = some (.str "ycpkg-spec-v0.1") := by
    unfold schemaOk
    split
    · rename_i s h; rw [h]; simp
    · rename_i h; simp only [Bool.false_eq_true, false_iff]; exact fun h2 => h _ h2
  split_ifs with h
  · exact says_ok_true (this.mp h) (by simp)
  · exact says_fail (fun h2 => h (this.mpr h2))

theorem says_validate (D : Digest) (loads : Content → Bool) (p : Pkg K) (strict : Bool) :
    Says (validatePackage D loads p strict) (ValidPackage D loads p) := by
  unfold validatePackage
  cases hp : primaryEntry p.data with
  | error e =>
    refine says_ok_false ?_ ⟨(Sev.error, "geometry.primary missing"), by simp, rfl⟩
    rintro ⟨_, ⟨g, d, path, c, h1, h2, h3, _⟩, _⟩
    rw [primaryEntry_of h1 h2 h3] at hp
    cases hp
  | ok r =>
    obtain ⟨d, path⟩ := r
    have key := says_both (says_schema p.data) (says_both (says_primary D loads p d path hp)
      (says_both (says_derived D p) (says_both (says_section D p strict "exports")
        (says_both (says_section D p strict "attachments") (says_materials p.data strict)))))
    simp only
    intro b m h
    unfold summary at h
    rcases hr : (both (schemaCheck p.data) <| both (checkPrimary D loads p d path) <|
      both (checkSection D p false (derivedEntries p.data)) <|
      both (checkSection D p strict (ventries (.dict p.data) "exports")) <|
      both (checkSection D p strict (ventries (.dict p.data) "attachments")) <|
      validateMaterials p.data strict) with _ | ⟨ok, msgs⟩
    · rw [hr] at h; cases h
    · rw [hr] at h
      simp only [Except.ok.injEq, Prod.mk.injEq] at h
      obtain ⟨rfl, rfl⟩ := h
      obtain ⟨h1, h2⟩ := key ok msgs hr
      constructor
      · rw [h1]
        unfold ValidPackage Listed
        constructor
        · rintro ⟨k1, k2, k3, k4, k5, k6, k7⟩
          exact ⟨k1, k2, by rintro e (h | h | h); exacts [k3 e h, k4 e h, k5 e h], k6, k7⟩
        · rintro ⟨k1, k2, k3, k6, k7⟩
          exact ⟨k1, k2, fun e h => k3 e (.inl h), fun e h => k3 e (.inr (.inl h)), fun e h => k3 e (.inr (.inr h)), k6, k7⟩
      · refine h2.trans ?_
        cases ok <;> simp

/-- C30: whenever `validate_package` returns, it reports success exactly when the package is valid: the schema is
supported, the primary geometry loads, every listed file exists and has its recorded hash, and the materials are well
formed. -/
theorem C30_verdict (D : Digest) (loads : Content → Bool) (p : Pkg K) (strict ok : Bool) (msgs : List Msg)
    (h : validatePackage D loads p strict = .ok (ok, msgs)) : ok = true ↔ ValidPackage D loads p :=
  (says_validate D loads p strict ok msgs h).1

/-- C30: the verdict is negative exactly when an ERROR is among the messages. -/
theorem C30_messages (D : Digest) (loads : Content → Bool) (p : Pkg K) (strict ok : Bool) (msgs : List Msg)
    (h : validatePackage D loads p strict = .ok (ok, msgs)) : ok = false ↔ ∃ m ∈ msgs, m.1 = Sev.error := by
  have := (says_validate D loads p strict ok msgs h).2
  rw [← Bool.not_eq_true, this]
  simp only [ne_eq, not_forall, not_not, exists_prop]

end

/-- a digest for the examples -/
def demoDigest : Digest := fun _ c => String.ofList (c.map Char.toLower)

/-- a package with an attachment whose recorded hash is `h` -/
def demoPkg (h : String) : Pkg Int :=
  ⟨["pkg"], [("schema", .str "ycpkg-spec-v0.1"),
      ("geometry", .dict [("primary", .dict [("path", .str "g.json"), ("hash", .str "SHA256:abc")])]),
      ("attachments", .list [.dict [("path", .str "./x.stl"), ("hash", .str h)]])],
    [(["pkg", "g.json"], ['a', 'b', 'c']), (["pkg", "x.stl"], ['q'])]⟩

/-- Non-vacuity: an accepted package and a rejected one. -/
example : validatePackage demoDigest (fun _ => true) (demoPkg "sha256:q") false = .ok (true, [(.ok, "summary")]) := by
  decide +kernel

example : validatePackage demoDigest (fun _ => true) (demoPkg "sha256:r") false =
    .ok (false, [(.failed, "summary"), (.error, "hash mismatch")]) := by
  decide +kernel

/-! ### C86 validation always gives a verdict -/

/-- C86 (violated): a manifest entry without a path, or an empty `visual:` key of a material, makes `validate_package`
raise instead of reporting an error. -/
theorem C86_raises :
    let base : Doc Int := [("schema", .str "ycpkg-spec-v0.1"),
      ("geometry", .dict [("primary", .dict [("path", .str "g.json")])])]
    let files : List (List String × Content) := [(["pkg", "g.json"], [])]
    validatePackage demoDigest (fun _ => true) ⟨["pkg"], base ++ [("exports", .list [.dict [("id", .str "a")]])], files⟩ false =
      .error "KeyError" ∧
    validatePackage demoDigest (fun _ => true)
      ⟨["pkg"], base ++ [("materials", .dict [("steel", .dict [("source", .dict [("type", .str "custom")]), ("visual", .none)])])],
        files⟩ false = .error "AttributeError" := by
  decide +kernel

section
variable [LinearOrder K] [Zero K] [One K]

/-- an entry of the shape the package format describes -/
def EntryShape (e : Val K) : Prop :=
  ∃ d path, e = .dict d ∧ dget d "path" = some (.str path) ∧ ∀ h, dget d "hash" = some h → ∃ s, h = .str s

/-- a section is absent or a list of such entries -/
def SectionShape (d : Doc K) (k : String) : Prop :=
  ∀ v, dget d k = some v → ∃ l, v = .list l ∧ ∀ e ∈ l, EntryShape e

/-- a material of the shape the format describes: nested mappings where mappings are expected -/
def MaterialShape (m : Val K) : Prop :=
  ∃ d, m = .dict d ∧ (∀ v, dget d "source" = some v → ∃ src, v = .dict src ∧
    (∀ t, dget src "type" = some t → ∃ s, t = .str s) ∧ (∀ w, dget src "standard" = some w → ∃ sd, w = .dict sd)) ∧
    (∀ v, dget d "visual" = some v → ∃ vis, v = .dict vis)

/-- a manifest of the shape the format describes -/
def ManifestShape (data : Doc K) : Prop :=
  (∀ v, dget data "geometry" = some v → ∃ g, v = .dict g ∧ SectionShape g "derived" ∧
    ∀ d, dget g "primary" = some (.dict d) → ∀ h, dget d "hash" = some h → ∃ s, h = .str s) ∧
  SectionShape data "exports" ∧ SectionShape data "attachments" ∧
  ∀ ms, dget data "materials" = some (.dict ms) → ∀ m ∈ ms, MaterialShape m.2

/-- the call returns -/
def Returns (r : Except Err (Bool × List Msg)) : Prop := ∃ x, r = .ok x

theorem returns_both {a b : Except Err (Bool × List Msg)} (ha : Returns a) (hb : Returns b) : Returns (both a b) := by
  obtain ⟨⟨x, m⟩, rfl⟩ := ha
  obtain ⟨⟨y, n⟩, rfl⟩ := hb
  exact ⟨_, rfl⟩

theorem returns_checkFile (D : Digest) (c : Option Content) (h : Option (Val K)) (hh : ∀ v, h = some v → ∃ s, v = .str s) :
    Returns (checkFile D c h) := by
  unfold checkFile
  cases c with
  | none => exact ⟨_, rfl⟩
  | some c =>
    cases h with
    | none => exact ⟨_, rfl⟩
    | some v =>
      obtain ⟨s, rfl⟩ := hh v rfl
      simp only
      split_ifs <;> exact ⟨_, rfl⟩

theorem returns_entries (D : Digest) (p : Pkg K) (w : Bool) (es : List (Val K)) (h : ∀ e ∈ es, EntryShape e) :
    Returns (checkEntries D p w es) := by
  induction es with
  | nil => exact ⟨_, rfl⟩
  | cons e es ih =>
    have : checkEntries D p w (e :: es) = both (checkEntry D p w e) (checkEntries D p w es) := by
      simp only [checkEntries, both]
    rw [this]
    refine returns_both ?_ (ih (fun e he => h e (by simp [he])))
    obtain ⟨d, path, rfl, h1, h2⟩ := h e (by simp)
    unfold checkEntry
    simp only [vindex, h1, asPath, vget]
    obtain ⟨⟨ok, m⟩, hc⟩ := returns_checkFile D (p.file path) (dget d "hash") h2
    rw [hc]
    exact ⟨_, rfl⟩

theorem returns_section (D : Digest) (p : Pkg K) (w : Bool) (d : Doc K) (k : String) (h : SectionShape d k) :
    Returns (checkSection D p w (ventries (.dict d) k)) := by
  unfold checkSection ventries
  simp only [vget]
  cases hd : dget d k with
  | none => exact ⟨_, rfl⟩
  | some v =>
    obtain ⟨l, rfl, hl⟩ := h v hd
    exact returns_entries D p w l hl

theorem returns_material (m : Val K) (strict : Bool) (h : MaterialShape m) : Returns (validateMaterial m strict) := by
  obtain ⟨d, rfl, h1, h2⟩ := h
  unfold validateMaterial
  simp only [vget]
  cases hs : dget d "source" with
  | none => exact ⟨_, rfl⟩
  | some source =>
    obtain ⟨src, rfl, h3, h4⟩ := h1 source hs
    simp only
    by_cases ht : (Val.dict src : Val K).truthy = true
    · rw [if_neg (not_not.mpr ht)]
      have hsrc : Returns (checkSource (Val.dict src : Val K)) := by
        unfold checkSource
        simp only [vget]
        cases htt : dget src "type" with
        | none => exact ⟨_, rfl⟩
        | some t =>
          obtain ⟨s, rfl⟩ := h3 t htt
          simp only
          split_ifs
          · unfold standardCheck vgetDict
            simp only [vget]
            cases hst : dget src "standard" with
            | none => exact ⟨_, rfl⟩
            | some w =>
              obtain ⟨sd, rfl⟩ := h4 w hst
              exact ⟨_, rfl⟩
          all_goals exact ⟨_, rfl⟩
      obtain ⟨⟨ok1, m1⟩, hsrc⟩ := hsrc
      rw [hsrc]
      simp only [vgetDict, vget]
      have : ∃ vis, (dget d "visual").getD (.dict []) = .dict vis := by
        cases hv : dget d "visual" with
        | none => exact ⟨[], rfl⟩
        | some v => obtain ⟨vis, rfl⟩ := h2 v hv; exact ⟨vis, rfl⟩
      obtain ⟨vis, hvis⟩ := this
      rw [hvis]
      exact ⟨_, rfl⟩
    · rw [if_pos ht]
      exact ⟨_, rfl⟩

theorem returns_materialItems (strict : Bool) (ms : Doc K) (h4 : ∀ m ∈ ms, MaterialShape m.2) :
    Returns (validateMaterialItems strict ms) := by
  induction ms with
  | nil => exact ⟨_, rfl⟩
  | cons q ms ih =>
    obtain ⟨k, v⟩ := q
    obtain ⟨md, hmd, _⟩ := h4 (k, v) (by simp)
    have hmat := h4 (k, v) (by simp)
    simp only at hmd hmat
    subst hmd
    have : validateMaterialItems strict ((k, Val.dict md) :: ms) =
        both (validateMaterial (.dict md) strict) (validateMaterialItems strict ms) := by
      simp only [validateMaterialItems, both]
    rw [this]
    exact returns_both (returns_material _ strict hmat) (ih (fun m hm => h4 m (by simp [hm])))

/-- C86 (partial): on a manifest of the described shape `validate_package` always returns a verdict. Missing: it raises
on other manifests (`C86_raises`). -/
theorem C86_returns_partial (D : Digest) (loads : Content → Bool) (p : Pkg K) (strict : Bool) (h : ManifestShape p.data) :
    Returns (validatePackage D loads p strict) := by
  obtain ⟨h1, h2, h3, h4⟩ := h
  unfold validatePackage
  cases hp : primaryEntry p.data with
  | error e => exact ⟨_, rfl⟩
  | ok r =>
    obtain ⟨d, path⟩ := r
    obtain ⟨g, hg, hd, _⟩ := primaryEntry_ok hp
    obtain ⟨g', h5, h6, h7⟩ := h1 _ hg
    cases h5
    have hsum : ∀ r, Returns r → Returns (summary r) := by
      rintro r ⟨⟨x, m⟩, rfl⟩
      exact ⟨_, rfl⟩
    refine hsum _ (returns_both ?_ (returns_both ?_ (returns_both ?_ (returns_both ?_ (returns_both ?_ ?_)))))
    · unfold schemaCheck; split_ifs <;> exact ⟨_, rfl⟩
    · unfold checkPrimary
      obtain ⟨⟨ok, m⟩, hc⟩ := returns_checkFile D (p.file path) (dget d "hash") (h7 d hd)
      rw [hc]
      cases ok
      · exact ⟨_, rfl⟩
      · simp only
        cases p.file path with
        | none => exact ⟨_, rfl⟩
        | some c => simp only; split_ifs <;> exact ⟨_, rfl⟩
    · unfold derivedEntries
      simp only [vgetDict, vget, hg, Option.getD_some]
      exact returns_section D p false g "derived" h6
    · exact returns_section D p strict p.data "exports" h2
    · exact returns_section D p strict p.data "attachments" h3
    · unfold validateMaterials
      cases hm : dget p.data "materials" with
      | none => exact ⟨_, rfl⟩
      | some v =>
        simp only
        split_ifs
        · cases v with
          | dict ms =>
            simp only
            exact returns_materialItems strict ms (h4 ms hm)
          | _ => exact ⟨_, rfl⟩
        · exact ⟨_, rfl⟩

end

/-- Non-vacuity: the example package has the described shape. -/
example : ManifestShape (demoPkg "sha256:q").data := by
  refine ⟨?_, ?_, ?_, ?_⟩
  · intro v h
    cases h
    refine ⟨_, rfl, ?_, ?_⟩
    · intro v h; cases h
    · intro d h v hv
      cases h
      cases hv
      exact ⟨_, rfl⟩
  · intro v h; cases h
  · intro v h
    cases h
    refine ⟨_, rfl, ?_⟩
    intro e he
    simp only [List.mem_singleton] at he
    subst he
    refine ⟨_, _, rfl, rfl, ?_⟩
    intro h hh
    cases hh
    exact ⟨_, rfl⟩
  · intro ms h; cases h

end Verif.Pkg
