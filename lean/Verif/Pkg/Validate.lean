import Verif.Pkg.Spec

/-!
# Validation verdict (C30) and its lemmas
-/

namespace Verif.Pkg

open Verif.Dict
variable {K : Type}

/-- a partial verdict says `P`, and is negative exactly when it carries an ERROR message -/
def Says (r : Except Err (Bool × List Msg)) (P : Prop) : Prop :=
  ∀ b m, r = .ok (b, m) → (b = true ↔ P) ∧ (b = true ↔ ∀ x ∈ m, x.1 ≠ Sev.error)

theorem says_both {a b : Except Err (Bool × List Msg)} {P Q : Prop} (ha : Says a P) (hb : Says b Q) : Says (both a b) (P ∧ Q) := by
  intro r m h
  unfold both at h
  rcases a with _ | ⟨x, m1⟩
  · cases h
  · rcases b with _ | ⟨y, m2⟩
    · cases h
    · simp only [Except.ok.injEq, Prod.mk.injEq] at h
      obtain ⟨rfl, rfl⟩ := h
      obtain ⟨h1, h2⟩ := ha x m1 rfl
      obtain ⟨h3, h4⟩ := hb y m2 rfl
      constructor
      · rw [← h1, ← h3, Bool.and_eq_true]
      · rw [Bool.and_eq_true, h2, h4]
        simp only [List.mem_append]
        constructor
        · rintro ⟨h5, h6⟩ x (hx | hx)
          · exact h5 x hx
          · exact h6 x hx
        · intro h5
          exact ⟨fun x hx => h5 x (.inl hx), fun x hx => h5 x (.inr hx)⟩

theorem says_ok_true {P : Prop} {m : List Msg} (hP : P) (hm : ∀ x ∈ m, x.1 ≠ Sev.error) : Says (.ok (true, m)) P := by
  intro b m' h
  cases h
  exact ⟨by simp [hP], by simpa using hm⟩

theorem says_ok_false {P : Prop} {m : List Msg} (hP : ¬ P) (hm : ∃ x ∈ m, x.1 = Sev.error) : Says (.ok (false, m)) P := by
  intro b m' h
  cases h
  exact ⟨by simp [hP], by simpa using hm⟩

theorem says_fail {P : Prop} {t : String} (hP : ¬ P) : Says (.ok (false, [(Sev.error, t)])) P :=
  says_ok_false hP ⟨_, List.mem_singleton.mpr rfl, rfl⟩

theorem says_error {P : Prop} {e : Err} : Says (.error e) P := by intro b m h; cases h

theorem says_congr {r : Except Err (Bool × List Msg)} {P Q : Prop} (h : Says r P) (hpq : P ↔ Q) : Says r Q := by
  intro b m hr
  rw [← hpq]
  exact h b m hr

variable [LinearOrder K] [Zero K] [One K]

theorem says_checkFile (D : Digest) (p : Pkg K) (path : String) (h : Option (Val K)) :
    Says (checkFile D (p.file path) h) (FileOk D p path h) := by
  unfold checkFile FileOk
  cases hc : p.file path with
  | none => exact says_fail (by simp)
  | some c =>
    cases h with
    | none => exact says_ok_true ⟨c, rfl, by simp⟩ (by simp)
    | some v =>
      simp only
      split_ifs with ht
      · cases v with
        | str s =>
          simp only
          split_ifs with hl
          · refine says_fail ?_
            rintro ⟨c', h1, h2⟩
            cases h1
            have hs : s ≠ "" := by simpa [Val.truthy] using ht
            exact hl (by rw [h2 s rfl hs]; rfl)
          · refine says_ok_true ⟨c, rfl, ?_⟩ (by simp)
            intro s' hs' _
            cases hs'
            simpa [computeHash] using hl
        | _ => exact says_error
      · refine says_ok_true ⟨c, rfl, ?_⟩ (by simp)
        intro s hs hne
        cases hs
        simp [Val.truthy, hne] at ht

theorem says_checkEntry (D : Digest) (p : Pkg K) (w : Bool) (e : Val K) : Says (checkEntry D p w e) (EntryOk D p e) := by
  unfold checkEntry
  cases e with
  | dict d =>
    simp only [vindex]
    cases hp : dget d "path" with
    | none => exact says_error
    | some pv =>
      simp only
      cases pv with
      | str path =>
        simp only [asPath, vget]
        have h := says_checkFile D p path (dget d "hash")
        cases hc : checkFile D (p.file path) (dget d "hash") with
        | error e => exact says_error
        | ok r =>
          obtain ⟨ok, msgs⟩ := r
          have h := h ok msgs hc
          simp only
          intro b m hb
          simp only [Except.ok.injEq, Prod.mk.injEq] at hb
          obtain ⟨rfl, rfl⟩ := hb
          constructor
          · rw [h.1]
            constructor
            · intro hf; exact ⟨d, path, rfl, hp, hf⟩
            · rintro ⟨d', path', h1, h2, h3⟩
              cases h1
              rw [hp] at h2
              cases h2
              exact h3
          · rw [h.2]
            constructor
            · intro h5 x hx
              rcases List.mem_append.mp hx with hx | hx
              · exact h5 x hx
              · split_ifs at hx
                · simp only [List.mem_singleton] at hx; rw [hx]; simp
                · simp at hx
            · intro h5 x hx
              exact h5 x (List.mem_append_left _ hx)
      | _ => exact says_error
  | _ => exact says_error

theorem says_checkEntries (D : Digest) (p : Pkg K) (w : Bool) (es : List (Val K)) :
    Says (checkEntries D p w es) (∀ e ∈ es, EntryOk D p e) := by
  induction es with
  | nil => exact says_ok_true (by simp) (by simp)
  | cons e es ih =>
    have : checkEntries D p w (e :: es) = both (checkEntry D p w e) (checkEntries D p w es) := by
      simp only [checkEntries, both]
    rw [this]
    exact says_congr (says_both (says_checkEntry D p w e) ih) (by simp)

theorem ventries_ok {v : Val K} {k : String} {l : List (Val K)} (h : ventries v k = .ok l) :
    ∃ d, v = .dict d ∧ ((dget d k = some (.list l)) ∨ (l = [] ∧ ∀ l', dget d k ≠ some (.list l'))) := by
  unfold ventries at h
  cases v with
  | dict d =>
    refine ⟨d, rfl, ?_⟩
    simp only [vget] at h
    cases hd : dget d k with
    | none => rw [hd] at h; simp only [Except.ok.injEq] at h; exact .inr ⟨h.symm, by simp⟩
    | some w =>
      rw [hd] at h
      simp only at h
      cases w with
      | list l' => simp only [Except.ok.injEq] at h; subst h; exact .inl rfl
      | _ =>
        simp only at h
        split_ifs at h
        simp only [Except.ok.injEq] at h
        exact .inr ⟨h.symm, by simp⟩
  | _ => simp [vget] at h

theorem says_section (D : Digest) (p : Pkg K) (w : Bool) (k : String) :
    Says (checkSection D p w (ventries (.dict p.data) k))
      (∀ e, (∃ l, dget p.data k = some (.list l) ∧ e ∈ l) → EntryOk D p e) := by
  unfold checkSection
  cases he : ventries (.dict p.data) k with
  | error e => exact says_error
  | ok l =>
    refine says_congr (says_checkEntries D p w l) ?_
    obtain ⟨d, h1, h2⟩ := ventries_ok he
    cases h1
    rcases h2 with h2 | ⟨rfl, h2⟩
    · constructor
      · rintro h e ⟨l', h3, h4⟩
        rw [h2] at h3
        cases h3
        exact h e h4
      · intro h e he
        exact h e ⟨l, h2, he⟩
    · constructor
      · rintro _ e ⟨l', h3, _⟩
        exact absurd h3 (h2 l')
      · simp

theorem says_derived (D : Digest) (p : Pkg K) :
    Says (checkSection D p false (derivedEntries p.data))
      (∀ e, (∃ g l, dget p.data "geometry" = some (.dict g) ∧ dget g "derived" = some (.list l) ∧ e ∈ l) → EntryOk D p e) := by
  unfold checkSection derivedEntries
  cases hg : dget p.data "geometry" with
  | none =>
    simp only [vgetDict, vget, hg, Option.getD_none, ventries, dget, checkEntries]
    exact says_ok_true (by simp) (by simp)
  | some g =>
    simp only [vgetDict, vget, hg, Option.getD_some]
    cases he : ventries g "derived" with
    | error e => exact says_error
    | ok l =>
      refine says_congr (says_checkEntries D p false l) ?_
      obtain ⟨d, rfl, h2⟩ := ventries_ok he
      rcases h2 with h2 | ⟨rfl, h2⟩
      · constructor
        · rintro h e ⟨g', l', h3, h4, h5⟩
          cases h3
          rw [h2] at h4
          cases h4
          exact h e h5
        · intro h e he
          exact h e ⟨d, l, rfl, h2, he⟩
      · constructor
        · rintro _ e ⟨g', l', h3, h4, _⟩
          cases h3
          exact absurd h4 (h2 l')
        · simp

theorem says_standard (source : Val K) {P : Prop} (hP : P) : Says (standardCheck source) P := by
  unfold standardCheck
  cases vgetDict source "standard" with
  | error e => exact says_error
  | ok std =>
    cases std with
    | dict sd =>
      refine says_ok_true hP ?_
      intro x hx
      rcases List.mem_append.mp hx with hx | hx <;> split_ifs at hx <;> simp at hx <;> rw [hx] <;> simp
    | _ => exact says_error

theorem says_source (source : Val K) : Says (checkSource source)
    (∃ src t, source = .dict src ∧ dget src "type" = some (.str t) ∧ t ∈ ["standard", "vendor", "custom", "tested"]) := by
  unfold checkSource
  cases source with
  | dict src =>
    simp only [vget]
    cases ht : dget src "type" with
    | none => exact says_fail (by rintro ⟨s, t, h, h2, _⟩; cases h; simp [ht] at h2)
    | some t =>
      simp only
      by_cases h1 : t.truthy = true
      swap
      · rw [if_pos h1]
        refine says_fail ?_
        rintro ⟨s, u, h, h2, h3⟩
        cases h
        rw [ht] at h2
        cases h2
        have : u = "" := by simpa [Val.truthy] using h1
        subst this
        revert h3
        decide
      · rw [if_neg (not_not.mpr h1)]
        cases t with
        | str s =>
          simp only
          split_ifs with h2 h3
          · refine says_standard _ ?_
            exact ⟨src, s, rfl, ht, h2⟩
          · exact says_ok_true ⟨src, s, rfl, ht, h2⟩ (by simp)
          · refine says_fail ?_
            rintro ⟨s', u, h, h4, h5⟩
            cases h
            rw [ht] at h4
            cases h4
            exact h2 h5
        | list _ => exact says_error
        | dict _ => exact says_error
        | _ =>
          simp only
          refine says_fail ?_
          rintro ⟨s', u, h, h4, h5⟩
          cases h
          rw [ht] at h4
          cases h4
  | _ => exact says_error

theorem says_visual (visual : Val K) : Says (checkVisual visual)
    (∀ vis c, visual = .dict vis → dget vis "color" = some c → c.truthy = true → ∃ l, c = .list l ∧ l.length = 3) := by
  unfold checkVisual
  cases visual with
  | dict vis =>
    simp only [vget]
    have hw : ∀ (o : Option (Val K)) (x : Msg), x ∈ unitMsgs o → x.1 ≠ Sev.error := by
      intro o x hx
      unfold unitMsgs at hx
      split at hx
      · simp at hx
      · simp at hx
      · split_ifs at hx
        · simp at hx
        · simp only [List.mem_singleton] at hx; rw [hx]; simp
    have key : ∀ (P : Prop) (c : Bool × List Msg), Says (.ok c) P →
        Says (.ok (c.1, c.2 ++ unitMsgs (dget vis "metallic") ++ unitMsgs (dget vis "roughness"))) P := by
      intro P c h b m hb
      simp only [Except.ok.injEq, Prod.mk.injEq] at hb
      obtain ⟨rfl, rfl⟩ := hb
      obtain ⟨h1, h2⟩ := h c.1 c.2 rfl
      refine ⟨h1, h2.trans ?_⟩
      constructor
      · intro h3 x hx
        rcases List.mem_append.mp hx with hx | hx
        · rcases List.mem_append.mp hx with hx | hx
          · exact h3 x hx
          · exact hw _ x hx
        · exact hw _ x hx
      · intro h3 x hx
        exact h3 x (List.mem_append_left _ (List.mem_append_left _ hx))
    apply key
    unfold colorCheck
    cases hc : dget vis "color" with
    | none => exact says_ok_true (by rintro v c h h2; cases h; simp [hc] at h2) (by simp)
    | some v =>
      simp only
      by_cases hv : v.truthy = true
      swap
      · rw [if_pos hv]
        refine says_ok_true ?_ (by simp)
        rintro v' c h h2 h3
        cases h
        rw [hc] at h2
        cases h2
        exact absurd h3 hv
      · rw [if_neg (not_not.mpr hv)]
        cases v with
        | list l =>
          simp only
          by_cases hl : l.length = 3
          · rw [if_neg (not_not.mpr hl)]
            have hP : ∀ vis_1 c, Val.dict vis = Val.dict vis_1 → dget vis_1 "color" = some c → c.truthy = true →
                ∃ l, c = .list l ∧ l.length = 3 := by
              rintro v' c h h2 h3
              cases h
              rw [hc] at h2
              cases h2
              exact ⟨l, rfl, hl⟩
            split_ifs
            · exact says_ok_true hP (by simp)
            · exact says_ok_true hP (by simp)
          · rw [if_pos hl]
            refine says_fail ?_
            intro h
            obtain ⟨l', h1, h2⟩ := h vis _ rfl hc hv
            cases h1
            exact hl h2
        | _ =>
          refine says_fail ?_
          intro h
          obtain ⟨l', h1, h2⟩ := h vis _ rfl hc hv
          cases h1
  | _ => exact says_error

theorem says_material (m : Doc K) (strict : Bool) : Says (validateMaterial (.dict m) strict) (MaterialOk (.dict m)) := by
  unfold validateMaterial
  simp only [vget]
  cases hs : dget m "source" with
  | none => exact says_fail (by rintro ⟨d, src, t, h1, h2, _⟩; cases h1; simp [hs] at h2)
  | some source =>
    simp only
    by_cases ht : source.truthy = true
    swap
    · rw [if_pos ht]
      refine says_fail ?_
      rintro ⟨d, src, t, h1, h2, h3, _⟩
      cases h1
      rw [hs] at h2
      cases h2
      have : src = [] := by simpa [Val.truthy] using ht
      subst this
      simp [dget] at h3
    · rw [if_neg (not_not.mpr ht)]
      have h1 := says_source source
      cases hsrc : checkSource source with
      | error e => exact says_error
      | ok r1 =>
        obtain ⟨ok1, m1⟩ := r1
        have h1 := h1 ok1 m1 hsrc
        simp only
        cases hvis : vgetDict (.dict m : Val K) "visual" with
        | error e => exact says_error
        | ok visual =>
          simp only
          have h2 := says_visual visual
          cases hv : checkVisual visual with
          | error e => exact says_error
          | ok r2 =>
            obtain ⟨ok2, m2⟩ := r2
            have h2 := h2 ok2 m2 hv
            simp only
            intro b msgs hb
            simp only [Except.ok.injEq, Prod.mk.injEq] at hb
            obtain ⟨rfl, rfl⟩ := hb
            have hvv : ∀ vis c, dget vis "color" = some c → c.truthy = true →
                (visual = .dict vis ↔ dget m "visual" = some (.dict vis)) := by
              intro vis c hc hct
              simp only [vgetDict, vget, Except.ok.injEq] at hvis
              subst hvis
              cases dget m "visual" with
              | none =>
                simp only [Option.getD_none, Val.dict.injEq, reduceCtorEq, iff_false]
                rintro rfl
                simp [dget] at hc
              | some w => simp
            constructor
            · rw [Bool.and_eq_true, h1.1, h2.1]
              constructor
              · rintro ⟨⟨src, t, rfl, h3, h4⟩, h5⟩
                exact ⟨m, src, t, rfl, hs, h3, h4, fun vis c h6 h7 h8 => h5 vis c ((hvv vis c h7 h8).mpr h6) h7 h8⟩
              · rintro ⟨d, src, t, h3, h4, h5, h6, h7⟩
                cases h3
                rw [hs] at h4
                cases h4
                exact ⟨⟨src, t, rfl, h5, h6⟩, fun vis c h8 h9 h10 => h7 vis c ((hvv vis c h9 h10).mp h8) h9 h10⟩
            · rw [Bool.and_eq_true, h1.2, h2.2]
              constructor
              · rintro ⟨h3, h4⟩ x hx
                rcases List.mem_append.mp hx with hx | hx
                · rcases List.mem_append.mp hx with hx | hx
                  · exact h3 x hx
                  · exact h4 x hx
                · split_ifs at hx
                  · simp only [List.mem_singleton] at hx; rw [hx]; simp
                  · simp at hx
              · intro h3
                exact ⟨fun x hx => h3 x (List.mem_append_left _ (List.mem_append_left _ hx)),
                  fun x hx => h3 x (List.mem_append_left _ (List.mem_append_right _ hx))⟩

theorem says_materialItems (ms : Doc K) (strict : Bool) :
    Says (validateMaterialItems strict ms) (∀ m ∈ ms, MaterialOk m.2) := by
  induction ms with
  | nil => exact says_ok_true (by simp) (by simp)
  | cons p ms ih =>
    obtain ⟨k, v⟩ := p
    have hbad : (∀ d, v ≠ .dict d) → Says (match validateMaterialItems strict ms with
        | .error e => .error e
        | .ok (_, msgs') => .ok (false, (.error, "definition must be a dictionary") :: msgs'))
        (∀ m ∈ (k, v) :: ms, MaterialOk m.2) := by
      intro hv
      cases validateMaterialItems strict ms with
      | error e => exact says_error
      | ok r =>
        refine says_ok_false ?_ ⟨_, List.mem_cons_self, rfl⟩
        intro h
        obtain ⟨d, _, _, h1, _⟩ := h (k, v) (by simp)
        exact hv d h1
    cases v with
    | dict d =>
      have : validateMaterialItems strict ((k, Val.dict d) :: ms) =
          both (validateMaterial (.dict d) strict) (validateMaterialItems strict ms) := by
        simp only [validateMaterialItems, both]
      rw [this]
      exact says_congr (says_both (says_material d strict) ih) (by simp)
    | _ => exact hbad (by simp)

theorem says_materials (data : Doc K) (strict : Bool) : Says (validateMaterials data strict)
    ((∀ ms, dget data "materials" = some (.dict ms) → ∀ m ∈ ms, MaterialOk m.2) ∧
      (∀ v, dget data "materials" = some v → v.truthy = true → ∃ ms, v = .dict ms)) := by
  unfold validateMaterials
  cases hm : dget data "materials" with
  | none => exact says_ok_true (by simp) (by simp)
  | some v =>
    simp only
    by_cases ht : v.truthy = true
    swap
    · rw [if_pos ht]
      refine says_ok_true ⟨?_, ?_⟩ (by simp)
      · rintro ms h
        cases h
        have : ms = [] := by simpa [Val.truthy] using ht
        subst this
        simp
      · rintro v' h h2
        cases h
        exact absurd h2 ht
    · rw [if_neg (not_not.mpr ht)]
      cases v with
      | dict ms =>
        refine says_congr (says_materialItems ms strict) ?_
        constructor
        · intro h
          exact ⟨by rintro ms' h2; cases h2; exact h, by rintro v h2 _; cases h2; exact ⟨ms, rfl⟩⟩
        · intro h
          exact h.1 ms rfl
      | _ =>
        refine says_fail ?_
        rintro ⟨_, h⟩
        obtain ⟨ms, h⟩ := h _ rfl ht
        cases h

end Verif.Pkg
