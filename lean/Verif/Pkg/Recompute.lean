import Verif.Pkg.Sign

/-!
# `PackageManifest.recompute_hashes`

Models src/yapcad/package/core.py:120-142.
-/

namespace Verif.Pkg

open Verif.Dict
variable {K : Type}

/-- the body of the loops: `path = self.root / info["path"]; if path.exists(): info["hash"] = …`, core.py:125-127,
131-133, 138-140 -/
def rehash (D : Digest) (alg : String) (p : Pkg K) (info : Val K) : Except Err (Val K) :=
  match info with
  | .dict d => match dget d "path" with
    | none => .error "KeyError"
    | some pv => match asPath pv with
      | .error e => .error e
      | .ok path => match p.file path with
        | some c => .ok (.dict (dset d "hash" (.str (computeHash D alg c))))
        | none => .ok (.dict d)
  | _ => .error "TypeError"

/-- a loop over a section's entries -/
def rehashAll (D : Digest) (alg : String) (p : Pkg K) : List (Val K) → Except Err (List (Val K))
  | [] => .ok []
  | e :: es => match rehash D alg p e with
    | .error x => .error x
    | .ok e' => match rehashAll D alg p es with
      | .error x => .error x
      | .ok es' => .ok (e' :: es')

section
variable [LinearOrder K] [Zero K] [One K]

/-- `for info in d.get(k, []) or []: …`, core.py:129-140; only lists are iterated (simplification) -/
def rehashKey (D : Digest) (alg : String) (p : Pkg K) (k : String) (d : Doc K) : Except Err (Doc K) :=
  match dget d k with
  | none => .ok d
  | some (.list l) => match rehashAll D alg p l with
    | .error x => .error x
    | .ok l' => .ok (dset d k (.list l'))
  | some w => if w.truthy then .error "TypeError" else .ok d

/-- the primary entry, core.py:122-127 -/
def rehashPrimary (D : Digest) (alg : String) (p : Pkg K) (g : Doc K) : Except Err (Doc K) :=
  match dget g "primary" with
  | none => .ok g
  | some w =>
    if w.truthy then
      match rehash D alg p w with
      | .error x => .error x
      | .ok w' => .ok (dset g "primary" w')
    else .ok g

/-- the geometry section, core.py:121-133; a missing section stays missing -/
def rehashGeometry (D : Digest) (alg : String) (p : Pkg K) (data : Doc K) : Except Err (Doc K) :=
  match dget data "geometry" with
  | none => .ok data
  | some (.dict g) => match rehashPrimary D alg p g with
    | .error x => .error x
    | .ok g1 => match rehashKey D alg p "derived" g1 with
      | .error x => .error x
      | .ok g2 => .ok (dset data "geometry" (.dict g2))
  | some _ => .error "AttributeError"

/-- `recompute_hashes`, core.py:126-145, when it does not raise -/
def recomputeHashes (D : Digest) (alg : String) (p : Pkg K) : Except Err (Pkg K) :=
  match rehashGeometry D alg p p.data with
  | .error x => .error x
  | .ok d1 => match rehashKey D alg p "exports" d1 with
    | .error x => .error x
    | .ok d2 => match rehashKey D alg p "attachments" d2 with
      | .error x => .error x
      | .ok d3 => .ok { p with data := d3 }

/-- two entries agree except, possibly, in the recorded hash -/
def SameButHash (e e' : Val K) : Prop :=
  ∃ d d', e = .dict d ∧ e' = .dict d' ∧ ∀ k, k ≠ "hash" → dget d' k = dget d k

/-- the entry's file, if it exists, has the digest recorded in the entry -/
def HashCurrent (D : Digest) (alg : String) (p : Pkg K) (e : Val K) : Prop :=
  ∀ d path c, e = .dict d → dget d "path" = some (.str path) → p.file path = some c →
    dget d "hash" = some (.str (alg ++ ":" ++ D alg c))

theorem rehash_spec (D : Digest) (alg : String) (p : Pkg K) (e e' : Val K) (h : rehash D alg p e = .ok e') :
    SameButHash e e' ∧ HashCurrent D alg p e' := by
  unfold rehash at h
  cases e with
  | dict d =>
    simp only at h
    cases hp : dget d "path" with
    | none => rw [hp] at h; cases h
    | some pv =>
      rw [hp] at h
      cases pv with
      | str path =>
        simp only [asPath] at h
        cases hf : p.file path with
        | none =>
          rw [hf] at h; cases h
          refine ⟨⟨d, d, rfl, rfl, fun _ _ => rfl⟩, ?_⟩
          rintro d' path' c h1 h2 h3
          cases h1; rw [hp] at h2; cases h2; rw [hf] at h3; cases h3
        | some c =>
          rw [hf] at h; cases h
          refine ⟨⟨d, _, rfl, rfl, fun k hk => by rw [dget_dset, if_neg hk]⟩, ?_⟩
          rintro d' path' c' h1 h2 h3
          cases h1
          rw [dget_dset, if_neg (by decide)] at h2
          rw [hp] at h2; cases h2; rw [hf] at h3; cases h3
          rw [dget_dset, if_pos rfl]; rfl
      | _ => cases h
  | _ => cases h

theorem rehashAll_spec (D : Digest) (alg : String) (p : Pkg K) (l l' : List (Val K)) (h : rehashAll D alg p l = .ok l') :
    List.Forall₂ SameButHash l l' ∧ ∀ e ∈ l', HashCurrent D alg p e := by
  induction l generalizing l' with
  | nil => cases h; exact ⟨.nil, by simp⟩
  | cons e es ih =>
    simp only [rehashAll] at h
    cases h1 : rehash D alg p e with
    | error x => rw [h1] at h; cases h
    | ok e' =>
      rw [h1] at h; simp only at h
      cases h2 : rehashAll D alg p es with
      | error x => rw [h2] at h; cases h
      | ok es' =>
        rw [h2] at h; cases h
        obtain ⟨a, b⟩ := rehash_spec D alg p e e' h1
        obtain ⟨c, d⟩ := ih es' h2
        exact ⟨.cons a c, by simpa using ⟨b, d⟩⟩

/-- what happens to one section -/
theorem rehashKey_spec (D : Digest) (alg : String) (p : Pkg K) (k : String) (d d' : Doc K)
    (h : rehashKey D alg p k d = .ok d') :
    (∀ k', k' ≠ k → dget d' k' = dget d k') ∧
    (∀ l', dget d' k = some (.list l') →
      ∃ l, dget d k = some (.list l) ∧ List.Forall₂ SameButHash l l' ∧ ∀ e ∈ l', HashCurrent D alg p e) := by
  unfold rehashKey at h
  cases hk : dget d k with
  | none => rw [hk] at h; cases h; exact ⟨fun _ _ => rfl, fun l' h => by rw [hk] at h; cases h⟩
  | some v =>
    rw [hk] at h
    have rest : ∀ w : Val K, v = w → (∀ l, w ≠ .list l) →
        (if w.truthy then Except.error "TypeError" else Except.ok d : Except Err (Doc K)) = .ok d' →
        (∀ k', k' ≠ k → dget d' k' = dget d k') ∧
        (∀ l', dget d' k = some (.list l') →
          ∃ l, some v = some (.list l) ∧ List.Forall₂ SameButHash l l' ∧ ∀ e ∈ l', HashCurrent D alg p e) := by
      rintro w rfl hw h
      by_cases ht : v.truthy = true
      · rw [if_pos ht] at h; cases h
      · rw [if_neg ht] at h; cases h
        exact ⟨fun _ _ => rfl, fun l' h => by rw [hk] at h; cases h; exact absurd rfl (hw l')⟩
    cases v with
    | list l =>
      simp only at h
      cases h1 : rehashAll D alg p l with
      | error x => rw [h1] at h; cases h
      | ok l' =>
        rw [h1] at h; cases h
        refine ⟨fun k' hk' => by rw [dget_dset, if_neg hk'], ?_⟩
        intro l2 h2
        rw [dget_dset, if_pos rfl] at h2; cases h2
        exact ⟨l, rfl, rehashAll_spec D alg p l l' h1⟩
    | _ => exact rest _ rfl (by intro l h; cases h) h

theorem rehashPrimary_spec (D : Digest) (alg : String) (p : Pkg K) (g g' : Doc K)
    (h : rehashPrimary D alg p g = .ok g') :
    (∀ k', k' ≠ "primary" → dget g' k' = dget g k') ∧
    (∀ w', dget g' "primary" = some w' → w'.truthy = true → ∃ w, dget g "primary" = some w ∧ SameButHash w w' ∧ HashCurrent D alg p w') := by
  unfold rehashPrimary at h
  cases hk : dget g "primary" with
  | none => rw [hk] at h; cases h; exact ⟨fun _ _ => rfl, fun w' h => by rw [hk] at h; cases h⟩
  | some v =>
    rw [hk] at h; simp only at h
    by_cases ht : v.truthy = true
    · rw [if_pos ht] at h
      cases h1 : rehash D alg p v with
      | error x => rw [h1] at h; cases h
      | ok w =>
        rw [h1] at h; cases h
        refine ⟨fun k' hk' => by rw [dget_dset, if_neg hk'], ?_⟩
        intro w2 h2 _
        rw [dget_dset, if_pos rfl] at h2; cases h2
        exact ⟨v, rfl, rehash_spec D alg p v w h1⟩
    · rw [if_neg ht] at h; cases h
      exact ⟨fun _ _ => rfl, fun w' h h' => by rw [hk] at h; cases h; exact absurd h' ht⟩

theorem rehashGeometry_spec (D : Digest) (alg : String) (p : Pkg K) (d d' : Doc K) (h : rehashGeometry D alg p d = .ok d') :
    (∀ k, k ≠ "geometry" → dget d' k = dget d k) ∧
    (∀ g', dget d' "geometry" = some (.dict g') → ∃ g, dget d "geometry" = some (.dict g) ∧
      (∀ w', dget g' "primary" = some w' → w'.truthy = true →
        ∃ w, dget g "primary" = some w ∧ SameButHash w w' ∧ HashCurrent D alg p w') ∧
      (∀ l', dget g' "derived" = some (.list l') → ∃ l, dget g "derived" = some (.list l) ∧
        List.Forall₂ SameButHash l l' ∧ ∀ e ∈ l', HashCurrent D alg p e)) := by
  unfold rehashGeometry at h
  cases hk : dget d "geometry" with
  | none => rw [hk] at h; cases h; exact ⟨fun _ _ => rfl, fun w' h => by rw [hk] at h; cases h⟩
  | some v =>
    rw [hk] at h
    cases v with
    | dict g =>
      simp only at h
      cases h1 : rehashPrimary D alg p g with
      | error x => rw [h1] at h; cases h
      | ok g1 =>
        rw [h1] at h; simp only at h
        cases h2 : rehashKey D alg p "derived" g1 with
        | error x => rw [h2] at h; cases h
        | ok g2 =>
          rw [h2] at h; cases h
          obtain ⟨a1, a2⟩ := rehashPrimary_spec D alg p g g1 h1
          obtain ⟨b1, b2⟩ := rehashKey_spec D alg p "derived" g1 g2 h2
          refine ⟨fun k' hk' => by rw [dget_dset, if_neg hk'], ?_⟩
          intro g' hg'
          rw [dget_dset, if_pos rfl] at hg'; cases hg'
          refine ⟨g, rfl, ?_, ?_⟩
          · intro w' hw' ht
            rw [b1 _ (by decide)] at hw'
            exact a2 w' hw' ht
          · intro l' hl'
            obtain ⟨l, c1, c2⟩ := b2 l' hl'
            rw [a1 _ (by decide)] at c1
            exact ⟨l, c1, c2⟩
    | _ => cases h

/-- C94: after `recompute_hashes` every listed file that exists has the recorded digest — the primary geometry, derived
geometry, exports and attachments — and an entry differs from the entry before only in its hash; no file is touched. -/
theorem C94_recompute (D : Digest) (alg : String) (p q : Pkg K) (h : recomputeHashes D alg p = .ok q) :
    q.files = p.files ∧ q.root = p.root ∧ (∀ e, Listed q.data e → HashCurrent D alg q e) ∧
    (∀ g prim, dget q.data "geometry" = some (.dict g) → dget g "primary" = some (.dict prim) → prim ≠ [] →
      HashCurrent D alg q (.dict prim)) ∧
    (∀ sec, sec = "exports" ∨ sec = "attachments" → ∀ l', dget q.data sec = some (.list l') →
      ∃ l, dget p.data sec = some (.list l) ∧ List.Forall₂ SameButHash l l') ∧
    (∀ g' l', dget q.data "geometry" = some (.dict g') → dget g' "derived" = some (.list l') →
      ∃ g l, dget p.data "geometry" = some (.dict g) ∧ dget g "derived" = some (.list l) ∧ List.Forall₂ SameButHash l l') ∧
    (∀ k, k ∉ ["geometry", "exports", "attachments"] → dget q.data k = dget p.data k) := by
  unfold recomputeHashes at h
  cases h1 : rehashGeometry D alg p p.data with
  | error x => rw [h1] at h; cases h
  | ok d1 =>
    rw [h1] at h; simp only at h
    cases h2 : rehashKey D alg p "exports" d1 with
    | error x => rw [h2] at h; cases h
    | ok d2 =>
      rw [h2] at h; simp only at h
      cases h3 : rehashKey D alg p "attachments" d2 with
      | error x => rw [h3] at h; cases h
      | ok d3 =>
        rw [h3] at h; cases h
        obtain ⟨a1, a2⟩ := rehashGeometry_spec D alg p _ d1 h1
        obtain ⟨b1, b2⟩ := rehashKey_spec D alg p "exports" d1 d2 h2
        obtain ⟨c1, c2⟩ := rehashKey_spec D alg p "attachments" d2 d3 h3
        have hg : ∀ g, dget d3 "geometry" = some (.dict g) → dget d1 "geometry" = some (.dict g) := by
          intro g hg
          rwa [c1 _ (by decide), b1 _ (by decide)] at hg
        have hx : ∀ l', dget d3 "exports" = some (.list l') → dget d2 "exports" = some (.list l') := by
          intro g hg
          rwa [c1 _ (by decide)] at hg
        refine ⟨rfl, rfl, ?_, ?_, ?_, ?_, ?_⟩
        · rintro e (⟨g, l, e1, e2, e3⟩ | ⟨l, e1, e3⟩ | ⟨l, e1, e3⟩)
          · obtain ⟨g0, _, _, f⟩ := a2 g (hg g e1)
            obtain ⟨_, _, _, f⟩ := f l e2
            exact f e e3
          · obtain ⟨_, _, _, f⟩ := b2 l (hx l e1)
            exact f e e3
          · obtain ⟨_, _, _, f⟩ := c2 l e1
            exact f e e3
        · intro g prim e1 e2 hne
          obtain ⟨g0, _, f, _⟩ := a2 g (hg g e1)
          obtain ⟨_, _, _, f⟩ := f _ e2 (by cases prim with
            | nil => exact absurd rfl hne
            | cons a b => rfl)
          exact f
        · rintro sec (rfl | rfl) l' hl
          · obtain ⟨l, f1, f2, _⟩ := b2 l' (hx l' hl)
            rw [a1 _ (by decide)] at f1
            exact ⟨l, f1, f2⟩
          · obtain ⟨l, f1, f2, _⟩ := c2 l' hl
            rw [b1 _ (by decide), a1 _ (by decide)] at f1
            exact ⟨l, f1, f2⟩
        · intro g' l' e1 e2
          obtain ⟨g, f1, _, f⟩ := a2 g' (hg g' e1)
          obtain ⟨l, f2, f3, _⟩ := f l' e2
          exact ⟨g, l, f1, f2, f3⟩
        · intro k hk
          simp only [List.mem_cons, List.not_mem_nil, or_false, not_or] at hk
          show dget d3 k = _
          rw [c1 k hk.2.2, b1 k hk.2.1, a1 k hk.1]

end

/-- C94, example: the package of the C30 examples with a stale hash fails to validate, and validates after
`recompute_hashes`. -/
example : (recomputeHashes demoDigest "sha256" (demoPkg "sha256:stale")).toOption.map (verdict ·) = some (some true) ∧
    verdict (demoPkg "sha256:stale") = some false := by decide +kernel

/-- tools for the example: a signature is good for the text it repeats -/
def echoTools : Tools where
  gpgSign c _ := .ok (c, "me", "me")
  sshSign c _ := .ok (c, "me", "me")
  gpgVerify c s := if c = s then .good "me" else .bad false
  sshVerify _ c s := if c = s then .good "me" else .bad true

/-- C92, example: the hypotheses of `C92_tamper` hold of a package whose version was changed after signing, and the
unchanged package verifies. -/
example :
    let d : Doc Nat := [("version", .str "1")]
    let p (v : String) : Pkg Nat := ⟨["p"], [("version", .str v), ("signatures", .list [.dict [("signature_file", .str "s")]])],
      [(["p", "s"], contentOf unaryText demoDigest d)]⟩
    (∀ f s, (p "2").file f = some s → ∀ c, s = c → s = contentOf unaryText demoDigest d) ∧
    (∃ r, verifyPackage unaryText demoDigest echoTools none (p "2") = .ok r ∧ r.isValid = false) ∧
    (∃ r, verifyPackage unaryText demoDigest echoTools none (p "1") = .ok r ∧ r.isValid = true) := by
  intro d p
  refine ⟨?_, ⟨_, rfl, by decide +kernel⟩, ⟨_, rfl, by decide +kernel⟩⟩
  intro f s h c _
  have h' : dget [(["p", "s"], contentOf unaryText demoDigest d)] (locate ["p"] f) = some s := h
  simp only [dget] at h'
  split at h'
  · cases h'; rfl
  · cases h'

end Verif.Pkg
