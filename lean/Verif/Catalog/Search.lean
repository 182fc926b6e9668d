import Verif.Catalog.Model

/-!
# Where a catalog comes from (C318), and the caches (C319)
-/

namespace Verif.Catalog

/-! ## specification -/

/-- the entries of a text separated by colons -/
def Entries (s : List Char) (parts : List (List Char)) : Prop := parts ≠ [] ∧ (∀ p ∈ parts, ':' ∉ p) ∧ [':'].intercalate parts = s

/-- the directory of the file is the first that has it -/
def FirstWith (w : World) (name : String) (dirs : List String) (d : String) (c : Content) : Prop :=
  ∃ before after, dirs = before ++ d :: after ∧ (∀ x ∈ before, w.file x name = none) ∧ w.file d name = some c

/-- a valid catalog: a dictionary with `sizes` and a `schema_version` that begins with `1.`, or none -/
def Valid (c : Content) (d : List (String × Y)) : Prop :=
  c = .doc (.dict d) ∧ (∃ v, get d "sizes" = some v) ∧ (get d "schema_version" = none ∨ ∃ v, get d "schema_version" = some (.str v) ∧ ∃ rest, v.toList = '1' :: '.' :: rest)

theorem loadYaml_ok {c : Content} {d : List (String × Y)} : loadYaml c = .ok d ↔ Valid c d := by
  unfold Valid
  cases c with
  | broken e => simp [loadYaml]
  | doc y =>
    cases y with
    | str s => simp [loadYaml]
    | other n => simp [loadYaml]
    | dict d' =>
      have pre : ∀ v : String, v.toList.take 2 = ['1', '.'] ↔ ∃ rest, v.toList = '1' :: '.' :: rest := by
        intro v
        constructor
        · intro h
          exact ⟨v.toList.drop 2, by rw [← List.take_append_drop 2 v.toList, h, List.drop_append_of_le_length (by simp)]; simp⟩
        · rintro ⟨r, hr⟩; rw [hr]; rfl
      simp only [loadYaml, Content.doc.injEq, Y.dict.injEq]
      cases hv : get d' "schema_version" with
      | none =>
        simp only [Option.getD_none]
        rw [if_pos (by decide)]
        cases hs : get d' "sizes" with
        | none =>
          constructor
          · intro h; exact nomatch h
          · rintro ⟨rfl, ⟨v, h⟩, -⟩; rw [hs] at h; exact nomatch h
        | some z =>
          constructor
          · intro h; cases h; exact ⟨rfl, ⟨z, hs⟩, .inl hv⟩
          · rintro ⟨rfl, -⟩; rfl
      | some y =>
        cases y with
        | str v =>
          simp only [Option.getD_some]
          by_cases hp : v.toList.take 2 = ['1', '.']
          · rw [if_pos hp]
            cases hs : get d' "sizes" with
            | none =>
              constructor
              · intro h; exact nomatch h
              · rintro ⟨rfl, ⟨v, h⟩, -⟩; rw [hs] at h; exact nomatch h
            | some z =>
              constructor
              · intro h; cases h; exact ⟨rfl, ⟨z, hs⟩, .inr ⟨v, hv, (pre v).1 hp⟩⟩
              · rintro ⟨rfl, -⟩; rfl
          · rw [if_neg hp]
            constructor
            · intro h; exact nomatch h
            · rintro ⟨rfl, -, h⟩
              rcases h with h | ⟨v', h, hr⟩
              · rw [hv] at h; exact nomatch h
              · rw [hv] at h
                cases h
                exact absurd ((pre v).2 hr) hp
        | dict _ =>
          simp only [Option.getD_some]
          constructor
          · intro h; exact nomatch h
          · rintro ⟨rfl, -, h⟩
            rcases h with h | ⟨v', h, hr⟩ <;> rw [hv] at h <;> exact nomatch h
        | other _ =>
          simp only [Option.getD_some]
          constructor
          · intro h; exact nomatch h
          · rintro ⟨rfl, -, h⟩
            rcases h with h | ⟨v', h, hr⟩ <;> rw [hv] at h <;> exact nomatch h

theorem split_ne (s : List Char) : split s ≠ [] := by
  cases s with
  | nil => simp [split]
  | cons c s =>
    unfold split
    split
    · simp
    · split <;> simp

theorem split_entries (s : List Char) : Entries s (split s) := by
  refine ⟨split_ne s, ?_⟩
  induction s with
  | nil => simp [split]
  | cons c s ih =>
    unfold split
    split
    · rename_i hc
      subst hc
      refine ⟨fun p hp => ?_, ?_⟩
      · rcases List.mem_cons.1 hp with rfl | hp
        · simp
        · exact ih.1 p hp
      · have : split s ≠ [] := split_ne s
        obtain ⟨a, l, hal⟩ := List.exists_cons_of_ne_nil this
        have h2 := ih.2
        rw [hal] at h2 ⊢
        rw [List.intercalate_cons_cons, h2]
        rfl
    · rename_i hc
      split
      · rename_i h
        exact absurd h (split_ne s)
      · rename_i w ws hws
        rw [hws] at ih
        refine ⟨fun p hp => ?_, ?_⟩
        · rcases List.mem_cons.1 hp with rfl | hp
          · rw [List.mem_cons, not_or]
            exact ⟨fun h => hc h.symm, ih.1 w List.mem_cons_self⟩
          · exact ih.1 p (List.mem_cons_of_mem _ hp)
        · have h2 := ih.2
          cases ws with
          | nil => rw [List.intercalate_singleton] at h2 ⊢; rw [h2]
          | cons a l => rw [List.intercalate_cons_cons] at h2 ⊢; rw [← h2]; rfl

theorem entries_unique : ∀ (l l' : List (List Char)), l ≠ [] → l' ≠ [] → (∀ p ∈ l, ':' ∉ p) → (∀ p ∈ l', ':' ∉ p) → [':'].intercalate l = [':'].intercalate l' → l = l' := by
  have key : ∀ (p q r t : List Char), ':' ∉ p → ':' ∉ q → p ++ ':' :: r = q ++ ':' :: t → p = q ∧ r = t := by
    intro p
    induction p with
    | nil =>
      intro q r t _ hq h
      cases q with
      | nil => exact ⟨rfl, (List.cons.inj h).2⟩
      | cons a q => exact absurd (by rw [List.nil_append, List.cons_append] at h; exact (List.cons.inj h).1 ▸ List.mem_cons_self) hq
    | cons b p ih =>
      intro q r t hp hq h
      cases q with
      | nil => exact absurd (by rw [List.nil_append, List.cons_append] at h; exact (List.cons.inj h).1 ▸ List.mem_cons_self) hp
      | cons a q =>
        rw [List.cons_append, List.cons_append] at h
        obtain ⟨h1, h2⟩ := List.cons.inj h
        obtain ⟨h3, h4⟩ := ih q r t (fun hm => hp (List.mem_cons_of_mem _ hm)) (fun hm => hq (List.mem_cons_of_mem _ hm)) h2
        exact ⟨by rw [h1, h3], h4⟩
  intro l
  induction l with
  | nil => intro l' h; exact absurd rfl h
  | cons a l ih =>
    intro l' _ hn h h' he
    cases l' with
    | nil => exact absurd rfl hn
    | cons b m =>
      cases l with
      | nil =>
        cases m with
        | nil => simpa [List.intercalate_singleton] using he
        | cons c m =>
          rw [List.intercalate_singleton, List.intercalate_cons_cons] at he
          exact absurd (by rw [he]; simp) (h a List.mem_cons_self)
      | cons a2 l =>
        cases m with
        | nil =>
          rw [List.intercalate_singleton, List.intercalate_cons_cons] at he
          exact absurd (by rw [← he]; simp) (h' b List.mem_cons_self)
        | cons c m =>
          rw [List.intercalate_cons_cons, List.intercalate_cons_cons, List.append_assoc, List.append_assoc] at he
          obtain ⟨h1, h2⟩ := key _ _ _ _ (h a List.mem_cons_self) (h' b List.mem_cons_self) he
          rw [h1, ih (c :: m) (by simp) (by simp) (fun p hp => h p (List.mem_cons_of_mem _ hp)) (fun p hp => h' p (List.mem_cons_of_mem _ hp)) h2]

/-- C318: the directories searched: first those named in the variable, between colons, blanks at the ends removed, in this order, then the user's, then the one of the package; always only those that are directories -/
theorem C318_directories (w : World) (parts : List (List Char)) (h : ∀ s, w.env = some s → Entries s parts) (h' : w.env = none → parts = []) :
    dataDirs w = (((parts.map strip).filter (· ≠ [])).map w.resolve ++ [w.user, w.bundled]).filter w.isDir := by
  have fin : ∀ l : List String, (if w.isDir w.bundled then (if w.isDir w.user then l.filter w.isDir ++ [w.user] else l.filter w.isDir) ++ [w.bundled]
      else if w.isDir w.user then l.filter w.isDir ++ [w.user] else l.filter w.isDir) = (l ++ [w.user, w.bundled]).filter w.isDir := by
    intro l
    rw [List.filter_append]
    cases hu : w.isDir w.user <;> cases hb : w.isDir w.bundled <;> simp [hu, hb]
  rw [← fin]
  unfold dataDirs
  cases hw : w.env with
  | none => rw [h' hw]; rfl
  | some s =>
    have h1 := h s hw
    have h2 := split_entries s
    rw [entries_unique _ _ h1.1 h2.1 h1.2.1 h2.2.1 (h1.2.2.trans h2.2.2.symm)]

theorem firstFile_ok {w : World} {name : String} {d : List (String × Y)} : ∀ {dirs : List String}, firstFile w name dirs = .ok d ↔ ∃ x c, FirstWith w name dirs x c ∧ Valid c d := by
  intro dirs
  induction dirs with
  | nil =>
    constructor
    · intro h; exact nomatch h
    · rintro ⟨x, c, ⟨b, a, h, -⟩, -⟩
      simp at h
  | cons x dirs ih =>
    unfold firstFile
    cases hf : w.file x name with
    | none =>
      dsimp only
      rw [ih]
      constructor
      · rintro ⟨y, c, ⟨b, a, h, hb, hc⟩, hv⟩
        refine ⟨y, c, ⟨x :: b, a, by rw [h]; rfl, fun z hz => ?_, hc⟩, hv⟩
        rcases List.mem_cons.1 hz with rfl | hz
        · exact hf
        · exact hb z hz
      · rintro ⟨y, c, ⟨b, a, h, hb, hc⟩, hv⟩
        cases b with
        | nil =>
          rw [List.nil_append] at h
          rw [(List.cons.inj h).1, hc] at hf
          exact nomatch hf
        | cons z b =>
          rw [List.cons_append] at h
          exact ⟨y, c, ⟨b, a, (List.cons.inj h).2, fun z hz => hb z (List.mem_cons_of_mem _ hz), hc⟩, hv⟩
    | some c =>
      dsimp only
      rw [loadYaml_ok]
      constructor
      · intro hv
        exact ⟨x, c, ⟨[], dirs, rfl, fun z hz => (nomatch hz), hf⟩, hv⟩
      · rintro ⟨y, c', ⟨b, a, h, hb, hc⟩, hv⟩
        cases b with
        | nil =>
          rw [List.nil_append] at h
          rw [← (List.cons.inj h).1, hf] at hc
          cases hc
          exact hv
        | cons z b =>
          rw [List.cons_append] at h
          have := hb z List.mem_cons_self
          rw [← (List.cons.inj h).1, hf] at this
          exact nomatch this

theorem firstFile_none {w : World} {name : String} : ∀ {dirs : List String}, (∀ x ∈ dirs, w.file x name = none) → firstFile w name dirs = .error "FileNotFoundError" := by
  intro dirs
  induction dirs with
  | nil => intro _; rfl
  | cons x dirs ih =>
    intro h
    unfold firstFile
    rw [h x List.mem_cons_self]
    exact ih fun y hy => h y (List.mem_cons_of_mem _ hy)

theorem firstFile_first {w : World} {name : String} {x : String} {c : Content} : ∀ {dirs : List String}, FirstWith w name dirs x c → firstFile w name dirs = loadYaml c := by
  intro dirs
  induction dirs with
  | nil => rintro ⟨b, a, h, -⟩; simp at h
  | cons y dirs ih =>
    rintro ⟨b, a, h, hb, hc⟩
    unfold firstFile
    cases b with
    | nil =>
      rw [List.nil_append] at h
      rw [(List.cons.inj h).1, hc]
    | cons z b =>
      rw [List.cons_append] at h
      obtain ⟨h1, h2⟩ := List.cons.inj h
      rw [h1, hb z List.mem_cons_self]
      exact ih ⟨b, a, h2, fun z hz => hb z (List.mem_cons_of_mem _ hz), hc⟩

/-- the dictionary a call returned: its entries at the time -/
def returned (s : St) (name : String) (custom : Option String) : Except String (List (String × Y)) := match load s name custom with
  | (.ok i, s') => .ok ((s'.heap[i]?).getD [])
  | (.error e, _) => .error e

theorem loadCached_clear (s : St) (k : Key) : (match loadCached (clear s) k with
    | (.ok i, s') => Except.ok ((s'.heap[i]?).getD [])
    | (.error e, _) => .error e) = (loadImpl (clear s) k).1 := by
  unfold loadCached
  rw [show find (clear s).cache k = none from rfl]
  have hh : (loadImpl (clear s) k).2.heap = s.heap := by
    unfold loadImpl
    split
    · split <;> rfl
    · rfl
  cases hl : loadImpl (clear s) k with
  | mk r s' =>
    rw [hl] at hh
    dsimp only
    cases r with
    | error e => rfl
    | ok d => simp

/-- C318: after the caches were cleared, a catalog comes from the first of the directories that has a file for the series, and the call succeeds exactly if that file is valid: an invalid file is not passed over -/
theorem C318_search (s : St) {name : String} (hn : name ∈ series) : (∀ d, returned (clear s) name none = .ok d ↔ ∃ x c, FirstWith s.world name (dataDirs s.world) x c ∧ Valid c d) ∧
    ((∀ x ∈ dataDirs s.world, s.world.file x name = none) → returned (clear s) name none = .error "FileNotFoundError") := by
  have h : returned (clear s) name none = firstFile s.world name (dataDirs s.world) := by
    unfold returned load
    rw [if_neg (not_not.2 hn)]
    exact loadCached_clear s (name, none)
  exact ⟨fun d => by rw [h]; exact firstFile_ok, fun hx => by rw [h]; exact firstFile_none hx⟩

/-- C318: with a path only this file counts, whatever the directories -/
theorem C318_custom (s : St) {name path : String} (hn : name ∈ series) (hp : path ≠ "") : (∀ d, returned (clear s) name (some path) = .ok d ↔ ∃ c, s.world.custom path = some c ∧ Valid c d) ∧
    (s.world.custom path = none → returned (clear s) name (some path) = .error "FileNotFoundError") := by
  have h : returned (clear s) name (some path) = (loadImpl (clear s) (name, some path)).1 := by
    unfold returned load
    rw [if_neg (not_not.2 hn), if_neg (by simpa using hp)]
    exact loadCached_clear s (name, some path)
  rw [h]
  unfold loadImpl
  dsimp only [clear]
  cases s.world.custom path with
  | none => simp
  | some c =>
    refine ⟨fun d => ?_, fun h => nomatch h⟩
    dsimp only
    rw [loadYaml_ok]
    simp

/-- C318: an unknown series is refused, whatever the state, and nothing changes -/
theorem C318_series (s : St) {name : String} (hn : name ∉ ["metric_coarse", "metric_fine", "unified_coarse", "unified_fine"]) (custom : Option String) :
    load s name custom = (.error "ValueError", s) := by
  unfold load
  exact if_pos hn

/-- the world of the examples: two directories in the variable, one of which does not exist, and the one of the package -/
def sample : World where
  env := some "/a: /b ".toList
  isDir x := x == "/b" || x == "/pkg"
  resolve := String.ofList
  user := "/home"
  bundled := "/pkg"
  file x name := if name = "metric_coarse" then if x = "/b" then some (.doc (.dict [("sizes", .dict [])])) else if x = "/pkg" then some (.broken "YAMLError") else none else none
  custom _ := none

set_option maxRecDepth 10000 in
/-- the directories of the sample, and a catalog from one of them -/
example : Entries "/a: /b ".toList ["/a".toList, " /b ".toList] ∧ dataDirs sample = ["/b", "/pkg"] ∧ "metric_coarse" ∈ series ∧
    FirstWith sample "metric_coarse" ["/b", "/pkg"] "/b" (.doc (.dict [("sizes", .dict [])])) ∧ Valid (.doc (.dict [("sizes", .dict [])])) [("sizes", .dict [])] := by
  refine ⟨by unfold Entries; decide +kernel, by decide +kernel, by decide, ⟨[], ["/pkg"], rfl, by simp, by simp [sample]⟩, rfl, ⟨.dict [], by simp [get]⟩, .inl (by simp [get])⟩

end Verif.Catalog
