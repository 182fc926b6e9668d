import Verif.Pkg.Props

/-!
# Adding files: C31 (one entry per path, current hash), C87 (failed calls), C88 (writes stay inside), C89 (fresh packages)
-/

namespace Verif.Pkg

open Verif.Dict
variable {K : Type}

/-! ### Paths -/

theorem splitSlash_plain (l : List Char) (h : '/' ∉ l) : splitSlash l = [l] := by
  induction l with
  | nil => rfl
  | cons c l ih =>
    have h1 : c ≠ '/' := fun e => h (by simp [e])
    simp [splitSlash, h1, ih (fun e => h (by simp [e]))]

theorem splitSlash_append (a b : List Char) (h : '/' ∉ a) : splitSlash (a ++ '/' :: b) = a :: splitSlash b := by
  induction a with
  | nil => simp [splitSlash]
  | cons c a ih =>
    have h1 : c ≠ '/' := fun e => h (by simp [e])
    simp [splitSlash, h1, ih (fun e => h (by simp [e]))]

theorem splitSlash_mem (l : List Char) : ∀ p ∈ splitSlash l, '/' ∉ p := by
  induction l with
  | nil => simp [splitSlash]
  | cons c l ih =>
    intro p hp
    unfold splitSlash at hp
    split_ifs at hp with hc
    · rcases List.mem_cons.mp hp with rfl | hp
      · simp
      · exact ih p hp
    · split at hp
      · simp only [List.mem_singleton] at hp
        subst hp
        simpa using Ne.symm hc
      · rename_i q qs hq
        rcases List.mem_cons.mp hp with rfl | hp
        · have := ih q (by simp [hq])
          simp only [List.mem_cons, not_or]
          exact ⟨Ne.symm hc, this⟩
        · exact ih p (by simp [hq, hp])

theorem splitSlash_join (ps : List (List Char)) (hne : ps ≠ []) (h : ∀ p ∈ ps, '/' ∉ p) : splitSlash (joinSlash ps) = ps := by
  induction ps with
  | nil => exact absurd rfl hne
  | cons p ps ih =>
    cases ps with
    | nil => exact splitSlash_plain p (h p (by simp))
    | cons q ps =>
      simp only [joinSlash]
      rw [splitSlash_append _ _ (h p (by simp)), ih (by simp) (fun r hr => h r (by simp [hr]))]

/-- components as `Path` keeps them -/
def Clean (parts : List String) : Prop := ∀ p ∈ parts, p ≠ "" ∧ p ≠ "." ∧ '/' ∉ p.toList

theorem clean_parsePath (s : String) : Clean (parsePath s) := by
  intro p hp
  unfold parsePath at hp
  simp only [List.mem_filter, List.mem_map, decide_eq_true_eq] at hp
  obtain ⟨⟨q, hq, rfl⟩, h1, h2⟩ := hp
  refine ⟨h1, h2, ?_⟩
  rw [String.toList_ofList]
  exact splitSlash_mem _ q hq

theorem parse_asPosix (parts : List String) (h : Clean parts) : parsePath (asPosix parts) = parts := by
  unfold asPosix
  split_ifs with he
  · subst he; decide +kernel
  · unfold parsePath
    rw [String.toList_ofList, splitSlash_join]
    · rw [List.map_map]
      have : String.ofList ∘ String.toList = id := by funext s; exact String.ofList_toList
      rw [this, List.map_id, List.filter_eq_self]
      intro p hp
      simpa using ⟨(h p hp).1, (h p hp).2.1⟩
    · simpa using he
    · intro p hp
      obtain ⟨q, hq, rfl⟩ := List.mem_map.mp hp
      exact (h q hq).2.2

theorem asPosix_rel (parts : List String) (h : Clean parts) : isAbsolute (asPosix parts) = false := by
  unfold asPosix
  split_ifs with he
  · decide +kernel
  · unfold isAbsolute
    rw [String.toList_ofList]
    cases parts with
    | nil => exact absurd rfl he
    | cons p ps =>
      have h1 := h p (by simp)
      have h2 : p.toList ≠ [] := by
        intro e
        apply h1.1
        rw [← String.toList_inj, e]
        rfl
      have h3 : (joinSlash ((p :: ps).map String.toList)).head? = p.toList.head? := by
        cases ps <;> cases hp : p.toList <;> simp_all [joinSlash]
      rw [h3]
      cases hp : p.toList with
      | nil => exact absurd hp h2
      | cons c cs =>
        have := h1.2.2
        rw [hp] at this
        simp only [List.head?_cons, Option.some.injEq, decide_eq_false_iff_not]
        rintro rfl
        simp at this

theorem resolve_noUp (parts : List String) (h : ".." ∉ parts) : resolve parts = parts := by
  unfold resolve
  suffices ∀ acc, parts.foldl (fun acc p => if p = ".." then acc.dropLast else acc ++ [p]) acc = acc ++ parts by
    simpa using this []
  induction parts with
  | nil => simp
  | cons p ps ih =>
    intro acc
    have h1 : p ≠ ".." := fun e => h (by simp [e])
    simp only [List.foldl_cons, if_neg h1]
    rw [ih (fun e => h (by simp [e]))]
    simp

theorem asPosix_inj {a b : List String} (ha : Clean a) (hb : Clean b) (h : asPosix a = asPosix b) : a = b := by
  rw [← parse_asPosix a ha, ← parse_asPosix b hb, h]

theorem clean_dest (c : AddCall K) (parts : List String) (h : destParts c = .ok parts) : Clean parts := by
  have hd : Clean ["geometry", "derived"] := by
    unfold Clean
    decide +kernel
  have ha : Clean ["attachments"] := by
    unfold Clean
    decide +kernel
  unfold destParts at h
  have happ : ∀ a b, Clean a → Clean b → Clean (a ++ b) := by
    intro a b h1 h2 p hp
    rcases List.mem_append.mp hp with h | h
    · exact h1 p h
    · exact h2 p h
  split at h
  · split_ifs at h
    · cases h; exact happ _ _ hd (clean_parsePath _)
    · cases h; exact happ _ _ ha (clean_parsePath _)
    · cases h; exact clean_parsePath _
  · split_ifs at h
    cases h
    exact clean_parsePath _

/-! ### Entries -/

theorem dget_updateDoc_other (m : Doc K) (k : String) (h : k ∉ keys m) : ∀ e : Doc K, dget (updateDoc e m) k = dget e k := by
  induction m with
  | nil => intro e; rfl
  | cons p m ih =>
    intro e
    have h1 : k ≠ p.1 := fun he => h (by simp [keys, he])
    show dget (updateDoc (dset e p.1 p.2) m) k = _
    rw [ih (fun he => h (by unfold keys at he ⊢; simp [he])), dget_dset, if_neg h1]

theorem dget_newEntry (D : Digest) (c : AddCall K) (parts : List String) (content : Content) (k : String)
    (hk : k ∉ keys c.metadata) (hp : k ≠ "purpose") :
    dget (newEntry D c parts content) k = dget [("path", .str (asPosix parts)),
      ("hash", .str (computeHash D "sha256" content)), ("format", .str c.src.fmt),
      ("source", .dict [("kind", .str "import"), ("original", .str c.src.original)])] k := by
  unfold newEntry
  rw [dget_updateDoc_other _ _ hk]
  cases c.purpose with
  | none => rfl
  | some p =>
    simp only
    split_ifs
    · rfl
    · rw [dget_dset, if_neg hp]

theorem dget_withId (e : Doc K) (s k : String) (hk : k ≠ "id") : dget (withId e s) k = dget e k := by
  unfold withId
  split
  · rfl
  · rw [dget_dset, if_neg hk]

/-- the finally recorded entry -/
def recorded (D : Digest) (c : AddCall K) (parts : List String) (content : Content) : Doc K :=
  if c.category = "attachments" then withId (newEntry D c parts content) c.stem else newEntry D c parts content

theorem recorded_path (D : Digest) (c : AddCall K) (parts : List String) (content : Content) :
    entryPath (.dict (recorded D c parts content) : Val K) = entryPath (.dict (newEntry D c parts content)) := by
  unfold recorded
  split_ifs
  · unfold entryPath
    simp only
    rw [dget_withId _ _ _ (by decide)]
  · rfl

theorem section_eq {data : Doc K} {k : String} {l : List (Val K)} (h : section? data k = .ok l) :
    (match dget data k with | some (.list l) => l | _ => []) = l := by
  unfold section? at h
  split at h
  · rename_i h1; cases h; rw [h1]
  · rename_i h1; cases h; rw [h1]
  · cases h

/-- effect of recording on the entries of each category -/
theorem record_entries (D : Digest) (c : AddCall K) (parts : List String) (content : Content) (data data' : Doc K)
    (h : record c (newEntry D c parts content) data = .ok data') :
    (c.category = "derived" ∨ c.category = "attachments") ∧
    entriesOf data' c.category = (entriesOf data c.category).filter (otherPath (newEntry D c parts content)) ++
      [.dict (recorded D c parts content)] ∧
    (∀ cat, (cat = "derived" ∨ cat = "attachments" ∨ cat = "exports") → cat ≠ c.category →
      entriesOf data' cat = entriesOf data cat) := by
  have hda : ("derived" : String) ≠ "attachments" := by decide
  have hga : ("geometry" : String) ≠ "attachments" := by decide
  have hge : ("geometry" : String) ≠ "exports" := by decide
  have hae : ("attachments" : String) ≠ "exports" := by decide
  have hde : ("derived" : String) ≠ "exports" := by decide
  unfold record at h
  by_cases h1 : c.category = "derived"
  · rw [if_pos h1] at h
    unfold geometry? at h
    have key : ∀ g, (match dget data "geometry" with | none => [] | some (.dict g) => g | _ => []) = g →
        (∀ l, section? g "derived" = .ok l → entriesOf data "derived" = l) := by
      intro g hg l hl
      have := section_eq hl
      unfold entriesOf
      rw [if_pos rfl]
      cases hd : dget data "geometry" with
      | none =>
        rw [hd] at hg
        simp only at hg
        subst hg
        simpa [dget] using this
      | some w =>
        rw [hd] at hg
        cases w with
        | dict g' => simp only at hg; subst hg; exact this
        | _ => simp only at hg; subst hg; simpa [dget] using this
    have main : ∀ g, (match dget data "geometry" with | none => [] | some (.dict g) => g | _ => []) = g →
        ∀ l, section? g "derived" = .ok l →
        data' = dset data "geometry" (.dict (dset g "derived" (.list (l.filter (otherPath (newEntry D c parts content)) ++
          [.dict (newEntry D c parts content)])))) →
        (c.category = "derived" ∨ c.category = "attachments") ∧
        entriesOf data' c.category = (entriesOf data c.category).filter (otherPath (newEntry D c parts content)) ++
          [.dict (recorded D c parts content)] ∧
        (∀ cat, (cat = "derived" ∨ cat = "attachments" ∨ cat = "exports") → cat ≠ c.category →
          entriesOf data' cat = entriesOf data cat) := by
      intro g hg l hl hdata
      have hent := key g hg l hl
      refine ⟨.inl h1, ?_, ?_⟩
      · rw [h1, hent, hdata]
        unfold entriesOf recorded
        rw [if_pos rfl, if_neg (by rw [h1]; exact hda), dget_dset, if_pos rfl]
        simp only
        rw [dget_dset, if_pos rfl]
      · intro cat hcat hne
        rw [h1] at hne
        rw [hdata]
        unfold entriesOf
        rw [if_neg hne, if_neg hne, dget_dset, if_neg]
        rcases hcat with h | h | h
        · exact absurd h hne
        · rw [h]; exact hga.symm
        · rw [h]; exact hge.symm
    cases hd : dget data "geometry" with
    | none =>
      rw [hd] at h
      simp only at h
      cases hs : section? ([] : Doc K) "derived" with
      | error e => rw [hs] at h; cases h
      | ok l =>
        rw [hs] at h
        simp only at h
        split_ifs at h
        cases h
        exact main [] (by rw [hd]) l hs rfl
    | some w =>
      rw [hd] at h
      cases w with
      | dict g =>
        simp only at h
        cases hs : section? g "derived" with
        | error e => rw [hs] at h; cases h
        | ok l =>
          rw [hs] at h
          simp only at h
          split_ifs at h
          cases h
          exact main g (by rw [hd]) l hs rfl
      | _ => cases h
  · rw [if_neg h1] at h
    by_cases h2 : c.category = "attachments"
    · rw [if_pos h2] at h
      cases hs : section? data "attachments" with
      | error e => rw [hs] at h; cases h
      | ok l =>
        rw [hs] at h
        simp only at h
        split_ifs at h
        cases h
        refine ⟨.inr h2, ?_, ?_⟩
        · rw [h2]
          unfold entriesOf recorded
          rw [if_neg hda.symm, if_neg hda.symm, if_pos h2, dget_dset, if_pos rfl]
          simp only
          rw [← section_eq hs]
          cases dget data "attachments" with
          | none => rfl
          | some v => cases v <;> rfl
        · intro cat hcat hne
          rw [h2] at hne
          unfold entriesOf
          split_ifs
          · rw [dget_dset, if_neg hga]
          · rw [dget_dset, if_neg hne]
    · rw [if_neg h2] at h
      cases h

/-! ### C31 -/

/-- the paths recorded in a category -/
def paths (data : Doc K) (cat : String) : List String := (entriesOf data cat).filterMap entryPath

theorem otherPath_iff (e : Doc K) (v : Val K) (s : String) (hs : entryPath (.dict e : Val K) = some s) :
    otherPath e v = true ↔ entryPath v ≠ some s := by
  unfold otherPath
  unfold entryPath at hs
  simp only at hs
  cases he : dget e "path" with
  | none => rw [he] at hs; cases hs
  | some w =>
    rw [he] at hs
    cases w with
    | str t =>
      simp only [Option.some.injEq] at hs
      subst hs
      cases v with
      | dict d =>
        simp only [entryPath]
        cases dget d "path" with
        | none => simp
        | some u => cases u <;> simp
      | _ => simp [entryPath]
    | _ => cases hs

theorem addCall_cases (D : Digest) (p : Pkg K) (c : AddCall K) :
    (∃ e, addGeometryFile D p c = (.error e, p)) ∨
    (∃ content parts, c.src.content = some content ∧ destParts c = .ok parts ∧
      ((dget p.files (resolve (p.root ++ parts))).isSome && !c.overwrite) = false ∧
      ((∃ e, record c (newEntry D c parts content) p.data = .error e ∧
          addGeometryFile D p c = (.error e, { p with files := dset p.files (resolve (p.root ++ parts)) content })) ∨
       (∃ data, record c (newEntry D c parts content) p.data = .ok data ∧
          addGeometryFile D p c = (.ok (recorded D c parts content),
            { p with files := dset p.files (resolve (p.root ++ parts)) content, data := data })))) := by
  unfold addGeometryFile
  cases hc : c.src.content with
  | none => exact .inl ⟨_, rfl⟩
  | some content =>
    simp only
    cases hd : destParts c with
    | error e => exact .inl ⟨_, rfl⟩
    | ok parts =>
      simp only
      cases ho : ((dget p.files (resolve (p.root ++ parts))).isSome && !c.overwrite) with
      | true => exact .inl ⟨_, rfl⟩
      | false =>
        refine .inr ⟨content, parts, rfl, rfl, ho, ?_⟩
        simp only [Bool.false_eq_true, if_false]
        cases hr : record c (newEntry D c parts content) p.data with
        | error e => exact .inl ⟨e, rfl, rfl⟩
        | ok data => exact .inr ⟨data, rfl, rfl⟩

theorem nodup_add (D : Digest) (p : Pkg K) (c : AddCall K) (cat : String) (hcat : cat = "derived" ∨ cat = "attachments")
    (h : (paths p.data cat).Nodup) : (paths (addGeometryFile D p c).2.data cat).Nodup := by
  rcases addCall_cases D p c with ⟨e, h1⟩ | ⟨content, parts, _, _, _, ⟨e, _, h1⟩ | ⟨data, hr, h1⟩⟩
  · rw [h1]; exact h
  · rw [h1]; exact h
  · rw [h1]
    obtain ⟨_, h2, h3⟩ := record_entries D c parts content p.data data hr
    by_cases hc : cat = c.category
    · subst hc
      unfold paths at h ⊢
      simp only
      rw [h2, List.filterMap_append]
      have hsub : ((entriesOf p.data c.category).filter (otherPath (newEntry D c parts content))).Sublist
        (entriesOf p.data c.category) := List.filter_sublist
      have hnd := (hsub.filterMap entryPath).nodup h
      rw [List.nodup_append]
      refine ⟨hnd, ?_, ?_⟩
      · cases hp : entryPath (.dict (recorded D c parts content) : Val K) <;> simp [hp]
      · intro a ha b hb
        rw [List.mem_filterMap] at ha hb
        obtain ⟨v, hv, hva⟩ := ha
        obtain ⟨w, hw, hwb⟩ := hb
        simp only [List.mem_singleton] at hw
        subst hw
        rw [recorded_path] at hwb
        rw [List.mem_filter] at hv
        have := (otherPath_iff _ v b hwb).mp hv.2
        rintro rfl
        exact this hva
    · unfold paths at h ⊢
      simp only
      rw [h3 cat (by tauto) hc]
      exact h

/-- C31: whatever calls are made, in whatever order and whether or not they raise, each category of the manifest has at
most one entry for each path (if it did before). -/
theorem C31_one_entry (D : Digest) (p : Pkg K) (cs : List (AddCall K)) (cat : String)
    (hcat : cat = "derived" ∨ cat = "attachments") (h : (paths p.data cat).Nodup) :
    (paths (addAll D p cs).data cat).Nodup := by
  unfold addAll
  induction cs generalizing p with
  | nil => exact h
  | cons c cs ih => exact ih _ (nodup_add D p c cat hcat h)

/-- a listed entry is as recorded by `add_geometry_file` and its file still has that content -/
def Current (D : Digest) (kind : List String → String) (p : Pkg K) (cat : String) (e : Val K) : Prop :=
  ∃ d parts c, e = .dict d ∧ dget d "path" = some (.str (asPosix parts)) ∧ Clean parts ∧ ".." ∉ parts ∧ kind parts = cat ∧
    dget p.files (p.root ++ parts) = some c ∧ dget d "hash" = some (.str (computeHash D "sha256" c))

/-- calls that go nowhere up, do not replace the recorded path or hash, and use each destination for one category -/
def Plain (kind : List String → String) (c : AddCall K) : Prop :=
  "path" ∉ keys c.metadata ∧ "hash" ∉ keys c.metadata ∧
  ∀ parts, destParts c = .ok parts → ".." ∉ parts ∧ kind parts = c.category

theorem current_add (D : Digest) (kind : List String → String) (p : Pkg K) (hroot : ".." ∉ p.root) (c : AddCall K)
    (hc : Plain kind c) (h : ∀ cat, cat = "derived" ∨ cat = "attachments" → ∀ e ∈ entriesOf p.data cat, Current D kind p cat e) :
    ∀ cat, cat = "derived" ∨ cat = "attachments" →
      ∀ e ∈ entriesOf (addGeometryFile D p c).2.data cat, Current D kind (addGeometryFile D p c).2 cat e := by
  obtain ⟨hm1, hm2, hd⟩ := hc
  rcases addCall_cases D p c with ⟨e, h1⟩ | ⟨content, parts, hsrc, hdest, _, hr⟩
  · rw [h1]; exact h
  · obtain ⟨hup, hkind⟩ := hd parts hdest
    have hclean := clean_dest c parts hdest
    have hres : resolve (p.root ++ parts) = p.root ++ parts := by
      apply resolve_noUp
      simp only [List.mem_append, not_or]
      exact ⟨hroot, hup⟩
    -- entries whose destination differs are untouched
    have hkeep : ∀ cat e data', Current D kind p cat e → (∀ d, e = .dict d → dget d "path" ≠ some (.str (asPosix parts))) →
        Current D kind { p with files := dset p.files (p.root ++ parts) content, data := data' } cat e := by
      rintro cat e data' ⟨d, q, cc, rfl, h2, h3, h4, h5, h6, h7⟩ hne
      refine ⟨d, q, cc, rfl, h2, h3, h4, h5, ?_, h7⟩
      simp only
      rw [dget_dset, if_neg]
      · exact h6
      · intro e
        have : q = parts := List.append_cancel_left e
        subst this
        exact hne d rfl h2
    have hkeepCat : ∀ cat e data', cat ≠ c.category → Current D kind p cat e →
        Current D kind { p with files := dset p.files (p.root ++ parts) content, data := data' } cat e := by
      intro cat e data' hcat hcur
      refine hkeep cat e data' hcur ?_
      obtain ⟨d, q, cc, rfl, h2, h3, h4, h5, h6, h7⟩ := hcur
      rintro d' hd' hp
      cases hd'
      rw [h2] at hp
      simp only [Option.some.injEq, Val.str.injEq] at hp
      have := asPosix_inj h3 hclean hp
      subst this
      exact hcat (h5.symm.trans hkind)
    rcases hr with ⟨e, hr, h1⟩ | ⟨data, hr, h1⟩
    · rw [h1, hres]
      intro cat hcat e he
      by_cases hcc : cat = c.category
      · -- recording raised: the section is not a list, so it has no entries
        exfalso
        have hdicts : ∀ l, (∀ e ∈ l, Current D kind p cat e) → allDicts l = true := by
          intro l hl
          unfold allDicts
          rw [List.all_eq_true]
          intro v hv
          obtain ⟨d, _, _, rfl, _⟩ := hl v hv
          rfl
        have hall := h cat hcat
        subst hcc
        unfold record at hr
        rcases hcat with h2 | h2
        · rw [if_pos h2] at hr
          rw [h2] at he hall hdicts
          unfold entriesOf at he hall
          rw [if_pos rfl] at he hall
          unfold geometry? at hr
          cases hg : dget p.data "geometry" with
          | none => rw [hg] at he; simp at he
          | some w =>
            rw [hg] at he hall hr
            cases w with
            | dict g =>
              simp only at he hall hr
              unfold section? at hr
              cases hl : dget g "derived" with
              | none => rw [hl] at he; simp at he
              | some u =>
                rw [hl] at he hall hr
                cases u with
                | list l =>
                  simp only at he hall hr
                  rw [if_pos (hdicts l hall)] at hr
                  cases hr
                | _ => simp at he
            | _ => simp at he
        · have h3 : c.category ≠ "derived" := by rw [h2]; decide
          rw [if_neg h3, if_pos h2] at hr
          rw [h2] at he hall hdicts
          unfold entriesOf at he hall
          rw [if_neg (by decide)] at he hall
          unfold section? at hr
          cases hl : dget p.data "attachments" with
          | none => rw [hl] at he; simp at he
          | some u =>
            rw [hl] at he hall hr
            cases u with
            | list l =>
              simp only at he hall hr
              rw [if_pos (hdicts l hall)] at hr
              cases hr
            | _ => simp at he
      · exact hkeepCat cat e p.data hcc (h cat hcat e he)
    · rw [h1, hres]
      obtain ⟨_, h2, h3⟩ := record_entries D c parts content p.data data hr
      intro cat hcat e he
      by_cases hcc : cat = c.category
      · subst hcc
        simp only at he
        rw [h2] at he
        rcases List.mem_append.mp he with he | he
        · rw [List.mem_filter] at he
          refine hkeep c.category e data (h c.category hcat e he.1) ?_
          intro d hde hpath
          have hnew : entryPath (.dict (newEntry D c parts content) : Val K) = some (asPosix parts) := by
            unfold entryPath
            simp only
            rw [dget_newEntry D c parts content "path" hm1 (by decide)]
            rfl
          have := (otherPath_iff _ e _ hnew).mp he.2
          subst hde
          unfold entryPath at this
          simp only [hpath] at this
          exact this rfl
        · simp only [List.mem_singleton] at he
          subst he
          refine ⟨_, parts, content, rfl, ?_, hclean, hup, hkind, ?_, ?_⟩
          · unfold recorded
            split_ifs
            · rw [dget_withId _ _ _ (by decide), dget_newEntry D c parts content "path" hm1 (by decide)]; rfl
            · rw [dget_newEntry D c parts content "path" hm1 (by decide)]; rfl
          · simp only
            rw [dget_dset, if_pos rfl]
          · unfold recorded
            split_ifs
            · rw [dget_withId _ _ _ (by decide), dget_newEntry D c parts content "hash" hm2 (by decide)]; rfl
            · rw [dget_newEntry D c parts content "hash" hm2 (by decide)]; rfl
      · simp only at he
        rw [h3 cat (by tauto) hcc] at he
        exact hkeepCat cat e data hcc (h cat hcat e he)

theorem root_add (D : Digest) (p : Pkg K) (c : AddCall K) : (addGeometryFile D p c).2.root = p.root := by
  rcases addCall_cases D p c with ⟨e, h1⟩ | ⟨content, parts, _, _, _, ⟨e, _, h1⟩ | ⟨data, _, h1⟩⟩ <;> rw [h1]

/-- C31 (partial): after any history of calls that do not go up with `..`, do not override the recorded path or hash and
use each destination with one category only, every derived and attached entry records the hash of the file's present
content. Missing: the other calls (`C31_dotdot_stale`, `C31_categories_stale`, `C31_metadata_overrides`). -/
theorem C31_hash_current_partial (D : Digest) (kind : List String → String) (p : Pkg K) (hroot : ".." ∉ p.root)
    (hd : entriesOf p.data "derived" = []) (ha : entriesOf p.data "attachments" = []) (cs : List (AddCall K))
    (hcs : ∀ c ∈ cs, Plain kind c) (cat : String) (hcat : cat = "derived" ∨ cat = "attachments") :
    ∀ e ∈ entriesOf (addAll D p cs).data cat, EntryOk D (addAll D p cs) e := by
  have key : ∀ (cs : List (AddCall K)) (p : Pkg K), ".." ∉ p.root → (∀ c ∈ cs, Plain kind c) →
      (∀ cat, cat = "derived" ∨ cat = "attachments" → ∀ e ∈ entriesOf p.data cat, Current D kind p cat e) →
      ".." ∉ (addAll D p cs).root ∧ ∀ cat, cat = "derived" ∨ cat = "attachments" →
        ∀ e ∈ entriesOf (addAll D p cs).data cat, Current D kind (addAll D p cs) cat e := by
    intro cs
    induction cs with
    | nil => intro p h1 _ h2; exact ⟨h1, h2⟩
    | cons c cs ih =>
      intro p h1 h2 h3
      exact ih _ (by rw [root_add]; exact h1) (fun c hc => h2 c (by simp [hc])) (current_add D kind p h1 c (h2 c (by simp)) h3)
  obtain ⟨hr, hcur⟩ := key cs p hroot hcs (by rintro cat (rfl | rfl) <;> simp [hd, ha])
  intro e he
  obtain ⟨d, parts, c, rfl, h2, h3, h4, h5, h6, h7⟩ := hcur cat hcat e he
  refine ⟨d, asPosix parts, rfl, h2, c, ?_, ?_⟩
  · unfold Pkg.file locate
    rw [asPosix_rel parts h3, parse_asPosix parts h3, if_neg (by simp), resolve_noUp]
    · exact h6
    · simp only [List.mem_append, not_or]; exact ⟨hr, h4⟩
  · intro s hs _
    rw [h7] at hs
    cases hs
    rfl

/-- a call for the examples -/
def addCall (content : Content) (dest category : String) (metadata : Doc Int) : AddCall Int :=
  ⟨⟨"x.stl", "stl", "/tmp/x.stl", some content⟩, some dest, none, category, true, metadata, "x"⟩

/-- Non-vacuity: replacing a file and adding another. -/
example : ∀ c ∈ [addCall ['a'] "d/x.stl" "derived" [], addCall ['b'] "./d/x.stl" "derived" [],
    addCall ['c'] "att/y.stl" "attachments" [("note", .str "n")]],
    Plain (fun parts => if parts.head? = some "d" then "derived" else "attachments") c := by
  intro c hc
  simp only [List.mem_cons, List.not_mem_nil, or_false] at hc
  rcases hc with rfl | rfl | rfl
  · refine ⟨by decide +kernel, by decide +kernel, fun parts h => ?_⟩
    have : parts = ["d", "x.stl"] := by
      have h2 : destParts (addCall ['a'] "d/x.stl" "derived" []) = .ok ["d", "x.stl"] := by decide +kernel
      rw [h2] at h; cases h; rfl
    subst this
    decide +kernel
  · refine ⟨by decide +kernel, by decide +kernel, fun parts h => ?_⟩
    have : parts = ["d", "x.stl"] := by
      have h2 : destParts (addCall ['b'] "./d/x.stl" "derived" []) = .ok ["d", "x.stl"] := by decide +kernel
      rw [h2] at h; cases h; rfl
    subst this
    decide +kernel
  · refine ⟨by decide +kernel, by decide +kernel, fun parts h => ?_⟩
    have : parts = ["att", "y.stl"] := by
      have h2 : destParts (addCall ['c'] "att/y.stl" "attachments" [("note", .str "n")]) = .ok ["att", "y.stl"] := by
        decide +kernel
      rw [h2] at h; cases h; rfl
    subst this
    decide +kernel

/-- an empty package -/
def emptyPkg : Pkg Int := ⟨["pkg"], [("schema", .str "ycpkg-spec-v0.1"),
  ("geometry", .dict [("primary", .dict [("path", .str "g.json")])])], [(["pkg", "g.json"], [])]⟩

/-- the verdict of validation -/
def verdict (p : Pkg Int) : Option Bool :=
  match validatePackage demoDigest (fun _ => true) p false with
  | .ok r => some r.1
  | .error _ => none

/-- C31 (violated): the same file reached by two spellings gets two entries, and the older one is stale: the package no
longer validates. -/
theorem C31_dotdot_stale :
    let p := addAll demoDigest emptyPkg [addCall ['a'] "d/../x.stl" "derived" [], addCall ['b'] "x.stl" "derived" []]
    paths p.data "derived" = ["d/../x.stl", "x.stl"] ∧ p.file "d/../x.stl" = p.file "x.stl" ∧ verdict p = some false := by
  decide +kernel

/-- C31 (violated): likewise when a file is first derived geometry and then replaced as an attachment. -/
theorem C31_categories_stale :
    verdict (addAll demoDigest emptyPkg [addCall ['a'] "x.stl" "derived" [], addCall ['b'] "x.stl" "attachments" []]) =
      some false ∧
    verdict (addAll demoDigest emptyPkg [addCall ['a'] "x.stl" "derived" [], addCall ['b'] "x.stl" "derived" []]) =
      some true := by
  decide +kernel

/-- C31 (violated): metadata can replace the recorded hash. -/
theorem C31_metadata_overrides :
    verdict (addAll demoDigest emptyPkg [addCall ['a'] "x.stl" "derived" [("hash", .str "sha256:z")]]) = some false := by
  decide +kernel

/-! ### C87 failed calls -/

/-- C87 (violated): with an unsupported category the call raises, but only after the file has been copied, over an
existing file if asked to. -/
theorem C87_failed_call_copies :
    let p := addAll demoDigest emptyPkg [addCall ['a'] "x.stl" "derived" []]
    let r := addGeometryFile demoDigest p (addCall ['b'] "x.stl" "export" [])
    (∃ e, r.1 = .error e) ∧ p.file "x.stl" = some ['a'] ∧ r.2.file "x.stl" = some ['b'] ∧
    verdict p = some true ∧ verdict r.2 = some false := by
  refine ⟨⟨"ValueError", rfl⟩, ?_⟩
  decide +kernel

/-- C87 (partial): a call that raises because the source is missing, the destination is absolute or the file exists
leaves the package as it was. Missing: an unsupported category or a malformed manifest. -/
theorem C87_unchanged_partial (D : Digest) (p : Pkg K) (c : AddCall K) (e : Err) (h : (addGeometryFile D p c).1 = .error e)
    (hcat : c.category = "derived" ∨ c.category = "attachments")
    (hg : ∀ v, dget p.data "geometry" = some v → ∃ g, v = .dict g ∧
      ∀ w, dget g "derived" = some w → ∃ l, w = .list l ∧ allDicts l = true)
    (ha : ∀ w, dget p.data "attachments" = some w → ∃ l, w = .list l ∧ allDicts l = true) :
    (addGeometryFile D p c).2 = p := by
  rcases addCall_cases D p c with ⟨e, h1⟩ | ⟨content, parts, _, _, _, ⟨e, hr, h1⟩ | ⟨data, _, h1⟩⟩
  · rw [h1]
  · exfalso
    unfold record at hr
    rcases hcat with h2 | h2
    · rw [if_pos h2] at hr
      unfold geometry? at hr
      cases hd : dget p.data "geometry" with
      | none => rw [hd] at hr; simp [section?, dget, allDicts] at hr
      | some w =>
        obtain ⟨g, rfl, h3⟩ := hg w hd
        rw [hd] at hr
        simp only at hr
        unfold section? at hr
        cases hl : dget g "derived" with
        | none => rw [hl] at hr; simp [allDicts] at hr
        | some u =>
          obtain ⟨l, rfl, h4⟩ := h3 u hl
          rw [hl] at hr
          simp [h4] at hr
    · rw [if_neg (by rw [h2]; decide), if_pos h2] at hr
      unfold section? at hr
      cases hl : dget p.data "attachments" with
      | none => rw [hl] at hr; simp [allDicts] at hr
      | some u =>
        obtain ⟨l, rfl, h4⟩ := ha u hl
        rw [hl] at hr
        simp [h4] at hr
  · rw [h1] at h; cases h

/-! ### C88 writes stay inside the package -/

/-- C88 (partial): a call whose destination does not contain `..` changes no file outside the package directory.
Missing: other destinations (`C88_escapes`). -/
theorem C88_inside_partial (D : Digest) (p : Pkg K) (c : AddCall K) (hroot : ".." ∉ p.root)
    (hup : ∀ parts, destParts c = .ok parts → ".." ∉ parts) (f : List String) (hf : ¬ p.root <+: f) :
    dget (addGeometryFile D p c).2.files f = dget p.files f := by
  have key : ∀ content parts, destParts c = .ok parts →
      dget (dset p.files (resolve (p.root ++ parts)) content) f = dget p.files f := by
    intro content parts hp
    rw [dget_dset, if_neg]
    rintro rfl
    apply hf
    rw [resolve_noUp _ (by simp only [List.mem_append, not_or]; exact ⟨hroot, hup parts hp⟩)]
    exact List.prefix_append _ _
  rcases addCall_cases D p c with ⟨e, h1⟩ | ⟨content, parts, _, hd, _, ⟨e, _, h1⟩ | ⟨data, _, h1⟩⟩
  · rw [h1]
  · rw [h1]; exact key content parts hd
  · rw [h1]; exact key content parts hd

/-- C88 (violated): a destination with `..` overwrites files outside the package. -/
theorem C88_escapes :
    let p : Pkg Int := ⟨["home", "pkg"], [], [(["home", "secret"], ['s'])]⟩
    let r := addGeometryFile demoDigest p (addCall ['a'] "../secret" "derived" [])
    (∃ e, r.1 = .ok e) ∧ dget r.2.files ["home", "secret"] = some ['a'] := ⟨⟨_, rfl⟩, by decide +kernel⟩

/-! ### C89 fresh packages validate -/

/-- C89 (violated): a package created with another hash algorithm than SHA-256 never validates, whatever it holds. -/
theorem C89_other_algorithm [LinearOrder K] [Zero K] [One K] (D : Digest) (loads : Content → Bool) (root : List String)
    (hroot : ".." ∉ root) (doc : Content) (name version : String) (strict : Bool) :
    ∃ m, validatePackage (K := K) D loads (createPackage D root doc name version "sha512" [] none) strict = .ok (false, m) := by
  have hfile : (createPackage (K := K) D root doc name version "sha512" [] none).file "geometry/primary.json" = some doc := by
    unfold Pkg.file locate
    have h1 : isAbsolute "geometry/primary.json" = false := by decide +kernel
    have h2 : parsePath "geometry/primary.json" = ["geometry", "primary.json"] := by decide +kernel
    rw [h1, h2]
    simp only [createPackage, Bool.false_eq_true, if_false, dget, if_true]
  have hne : lower (computeHash D "sha512" doc) ≠ lower (computeHash D "sha256" doc) := by
    intro h
    unfold lower computeHash at h
    rw [String.ofList_inj] at h
    simp only [String.toList_append, List.map_append, List.append_assoc] at h
    exact absurd (List.append_inj_left h (by decide +kernel)) (by decide +kernel)
  have hprim : primaryEntry (createPackage (K := K) D root doc name version "sha512" [] none).data =
      .ok ([("path", .str "geometry/primary.json"), ("schema", .str "yapcad-geometry-json-v0.1"),
        ("entities", .list []), ("hash", .str (computeHash D "sha512" doc))], "geometry/primary.json") := rfl
  unfold validatePackage
  rw [hprim]
  simp only
  have hp : checkPrimary D loads (createPackage (K := K) D root doc name version "sha512" [] none)
      [("path", .str "geometry/primary.json"), ("schema", .str "yapcad-geometry-json-v0.1"),
        ("entities", .list []), ("hash", .str (computeHash D "sha512" doc))] "geometry/primary.json" =
      .ok (false, [(.error, "hash mismatch")]) := by
    unfold checkPrimary
    rw [hfile]
    have : dget ([("path", .str "geometry/primary.json"), ("schema", .str "yapcad-geometry-json-v0.1"),
        ("entities", .list []), ("hash", .str (computeHash D "sha512" doc))] : Doc K) "hash" =
        some (.str (computeHash D "sha512" doc)) := rfl
    rw [this]
    have hs : ¬ computeHash D "sha512" doc = "" := by
      intro h
      unfold computeHash at h
      have := congrArg String.toList h
      simp [String.toList_append] at this
    simp only [checkFile, Val.truthy, hs, ne_eq, not_false_iff, decide_true, if_true, hne]
  rw [hp]
  exact ⟨_, rfl⟩

/-- C89 (partial): with SHA-256 a package created from geometry that loads validates, if its materials are well formed.
Missing: other algorithms. -/
theorem C89_fresh_partial [LinearOrder K] [Zero K] [One K] (D : Digest) (loads : Content → Bool) (root : List String)
    (doc : Content) (name version : String) (materials : Option (Doc K))
    (hl : loads doc = true) (hm : ∀ ms, materials = some ms → ∀ m ∈ ms, MaterialOk m.2) (ok : Bool) (msgs : List Msg)
    (strict : Bool)
    (h : validatePackage D loads (createPackage D root doc name version "sha256" [] materials) strict = .ok (ok, msgs)) :
    ok = true := by
  rw [C30_verdict D loads _ strict ok msgs h]
  have hfile : (createPackage (K := K) D root doc name version "sha256" [] materials).file "geometry/primary.json" =
      some doc := by
    unfold Pkg.file locate
    have h1 : isAbsolute "geometry/primary.json" = false := by decide +kernel
    have h2 : parsePath "geometry/primary.json" = ["geometry", "primary.json"] := by decide +kernel
    rw [h1, h2]
    simp only [createPackage, Bool.false_eq_true, if_false, dget, if_true]
  have hgeo : dget (createPackage (K := K) D root doc name version "sha256" [] materials).data "geometry" =
      some (.dict [("primary", .dict [("path", .str "geometry/primary.json"), ("schema", .str "yapcad-geometry-json-v0.1"),
        ("entities", .list []), ("hash", .str (computeHash D "sha256" doc))])]) := by
    cases materials <;> rfl
  refine ⟨by cases materials <;> rfl, ⟨_, _, _, doc, hgeo, rfl, rfl, ⟨doc, hfile, ?_⟩, hfile, hl⟩, ?_, ?_, ?_⟩
  · intro s hs _
    cases hs
    rfl
  · rintro e (⟨g, l, h1, h2, _⟩ | ⟨l, h1, _⟩ | ⟨l, h1, _⟩)
    · rw [hgeo] at h1
      cases h1
      cases h2
    · cases materials <;> cases h1
    · cases materials <;> cases h1
  · intro ms h1
    cases materials with
    | none => cases h1
    | some m => cases h1; exact hm _ rfl
  · intro v h1 _
    cases materials with
    | none => cases h1
    | some m => cases h1; exact ⟨_, rfl⟩

/-- Non-vacuity: a package with a placeholder material. -/
example : verdict (createPackage demoDigest ["p"] ['{', '}'] "n" "1" "sha256" [] (some [("steel", placeholder 0 1 1)])) =
    some true := by decide +kernel

end Verif.Pkg
