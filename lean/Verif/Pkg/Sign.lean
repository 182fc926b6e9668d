import Verif.Pkg.Add

/-!
# Signing: C32 (what is signed), C33 (verdict), C90 (signatures are kept), C91 (unchecked signatures), C92 (tampering),
C93 (what verification covers)
-/

namespace Verif.Pkg

open Verif.Dict
variable {K : Type}

/-! ### C32 -/

/-- the signed part of a manifest: all items but `signatures` -/
def signedPart (d : Doc K) : Doc K := d.filter fun p => p.1 ≠ "signatures"

theorem unsigned_eq (d : Doc K) : unsigned d = signedPart d := by
  unfold unsigned signedPart
  split_ifs with h
  · rfl
  · symm
    rw [List.filter_eq_self]
    intro p hp
    have : p.1 ≠ "signatures" := fun e => h (by unfold keys; exact List.mem_map.mpr ⟨p, hp, e⟩)
    simpa using this

theorem signedPart_dset (d : Doc K) (v : Val K) : signedPart (dset d "signatures" v) = signedPart d := by
  unfold signedPart
  induction d with
  | nil => simp [dset]
  | cons p d ih =>
    obtain ⟨k, w⟩ := p
    simp only [dset]
    split_ifs with hk
    · subst hk; simp
    · simp only [List.filter_cons, ih]

/-- C32: signing a package, with any tool, key and mode and even when it fails, does not change the hash that is signed. -/
theorem C32_sign_keeps_hash (N : NumText K) (D : Digest) (T : Tools) (time : String) (p : Pkg K) (m : Method)
    (keyId keyPath : Option String) (add : Bool) (name : Option String) :
    manifestHash N D (signPackage N D T time p m keyId keyPath add name).2.data = manifestHash N D p.data := by
  unfold signPackage
  cases makeSignature T (contentOf N D p.data) m keyId keyPath with
  | error e => rfl
  | ok r =>
    obtain ⟨sig, signer, key, file⟩ := r
    simp only
    cases ha : addSignature p.data add (sigEntry (name.getD signer) m.name key time file) with
    | error e => rfl
    | ok d =>
      simp only
      have : ∃ v, d = dset p.data "signatures" v := by
        unfold addSignature at ha
        split at ha
        · split_ifs at ha
          · split at ha
            · cases ha; exact ⟨_, rfl⟩
            · cases ha
          · cases ha; exact ⟨_, rfl⟩
        · cases ha; exact ⟨_, rfl⟩
      obtain ⟨v, rfl⟩ := this
      unfold manifestHash
      rw [unsigned_eq, unsigned_eq, signedPart_dset]

/-- C32: adding, replacing or removing signatures by hand does not change the signed hash either. -/
theorem C32_signatures_ignored (N : NumText K) (D : Digest) (d d' : Doc K) (h : signedPart d = signedPart d') :
    manifestHash N D d = manifestHash N D d' := by
  unfold manifestHash
  rw [unsigned_eq, unsigned_eq, h]

theorem distinct_signedPart (d : Doc K) (h : DistinctKeys (.dict d)) : DistinctKeys (.dict (signedPart d)) := by
  simp only [DistinctKeys] at h ⊢
  constructor
  · unfold keys signedPart
    exact (List.filter_sublist.map _).nodup h.1
  · have : ∀ d : Doc K, DistinctKeysD d → DistinctKeysD (signedPart d) := by
      intro d
      induction d with
      | nil => exact fun h => h
      | cons p d ih =>
        intro h
        simp only [DistinctKeysD] at h
        unfold signedPart
        simp only [List.filter_cons]
        split_ifs
        · simp only [DistinctKeysD]; exact ⟨h.1, ih h.2⟩
        · exact ih h.2
    exact this d h.2

/-- C32: reordering keys, at any depth, does not change the signed hash. -/
theorem C32_order_ignored (N : NumText K) (D : Digest) (d d' : Doc K) (hd : DistinctKeys (.dict d))
    (h : Same (.dict (signedPart d)) (.dict (signedPart d'))) : manifestHash N D d = manifestHash N D d' := by
  unfold manifestHash
  rw [unsigned_eq, unsigned_eq]
  rw [(dumps_eq_iff N _ _).mpr ((norm_eq_iff _ _ (distinct_signedPart d hd)).mpr h)]

/-- C32: two manifests with the same hash have the same signed part up to the order of keys — or exhibit two different
texts with the same SHA-256 digest. -/
theorem C32_detects (N : NumText K) (D : Digest) (d d' : Doc K) (hd : DistinctKeys (.dict d))
    (h : manifestHash N D d = manifestHash N D d') :
    Same (.dict (signedPart d)) (.dict (signedPart d')) ∨ ∃ x y : Content, x ≠ y ∧ D "sha256" x = D "sha256" y := by
  unfold manifestHash at h
  rw [unsigned_eq, unsigned_eq] at h
  by_cases he : dumps N (.dict (signedPart d)) = dumps N (.dict (signedPart d'))
  · exact .inl ((norm_eq_iff _ _ (distinct_signedPart d hd)).mp ((dumps_eq_iff N _ _).mp he))
  · exact .inr ⟨_, _, he, h⟩

/-- number texts for the examples: unary -/
def unaryText : NumText Nat where
  text n := '0' :: List.replicate n '1'
  inj := by
    intro a b h
    simp only [List.cons.injEq, true_and] at h
    simpa using congrArg List.length h
  head n := ⟨'0', _, rfl, by decide⟩
  plain n c hc := by
    simp only [List.mem_cons, List.mem_replicate] at hc
    rcases hc with rfl | ⟨_, rfl⟩ <;> decide

/-- Non-vacuity: reordered keys, escaped characters and a nested list. -/
example : dumps unaryText (.dict [("b", .list [.num 2, .none]), ("a\"", .bool true)]) =
    "{\"a\\\"\":true,\"b\":[011,null]}".toList := by decide +kernel

/-! ### C33 -/

/-- the entry's signature file holds a signature that the entry's tool accepts for the content -/
def Accepted (T : Tools) (allowed : Option Content) (content : Content) (p : Pkg K) (e : Val K) : Prop :=
  ∃ d file sig, e = .dict d ∧ (dget d "signature_file").getD (.str "") = .str file ∧ p.file file = some sig ∧
    ((entryMethod d = some .gpg ∧ ∃ s, T.gpgVerify content sig = .good s) ∨
     (entryMethod d = some .ssh ∧ ∃ a s, allowed = some a ∧ T.sshVerify a content sig = .good s))

/-- the entry names a known method -/
def KnownMethod (e : Val K) : Prop := ∃ d, e = .dict d ∧ entryMethod d ≠ none

theorem verifyEntry_valid (T : Tools) (allowed : Option Content) (content : Content) (p : Pkg K) (e : Val K)
    (r : SigInfo K ⊕ String) (h : verifyEntry T allowed content p e = .ok r) :
    ((∃ s, r = .inl s ∧ s.status = .valid) ↔ Accepted T allowed content p e) ∧ ((∃ s, r = .inl s) ↔ KnownMethod e) := by
  unfold verifyEntry at h
  cases e with
  | dict d =>
    simp only at h
    cases hm : entryMethod d with
    | none =>
      rw [hm] at h
      cases h
      constructor
      · constructor
        · rintro ⟨s, h, _⟩; cases h
        · rintro ⟨d', file, sig, h1, _, _, ⟨h2, _⟩ | ⟨h2, _⟩⟩ <;> cases h1 <;> rw [hm] at h2 <;> cases h2
      · constructor
        · rintro ⟨s, h⟩; cases h
        · rintro ⟨d', h1, h2⟩; cases h1; exact absurd hm h2
    | some m =>
      rw [hm] at h
      simp only at h
      have hk : KnownMethod (.dict d : Val K) := ⟨d, rfl, by rw [hm]; simp⟩
      cases hf : (dget d "signature_file").getD (.str "") with
      | str file =>
        rw [hf] at h
        simp only [asPath] at h
        cases hs : entryStatus T allowed content p m file with
        | error e => rw [hs] at h; cases h
        | ok st =>
          rw [hs] at h
          simp only [Except.ok.injEq] at h
          subst h
          refine ⟨?_, ⟨fun _ => hk, fun _ => ⟨_, rfl⟩⟩⟩
          have hst : (∃ s : SigInfo K, (Sum.inl ⟨(dget d "signer").getD (.str "unknown"), st⟩ : SigInfo K ⊕ String) =
              .inl s ∧ s.status = .valid) ↔ st = .valid := by
            constructor
            · rintro ⟨s, h1, h2⟩; cases h1; exact h2
            · rintro rfl; exact ⟨_, rfl, rfl⟩
          rw [hst]
          unfold entryStatus at hs
          by_cases hdir : parsePath file = []
          · rw [if_pos hdir] at hs; cases hs
          · rw [if_neg hdir] at hs
            cases hfile : p.file file with
            | none =>
              rw [hfile] at hs
              cases hs
              simp only [reduceCtorEq, false_iff]
              rintro ⟨d', f', sig, h1, h2, h3, _⟩
              cases h1
              rw [hf] at h2
              cases h2
              rw [hfile] at h3
              cases h3
            | some sig =>
              rw [hfile] at hs
              simp only at hs
              cases m with
              | gpg =>
                simp only [Except.ok.injEq] at hs
                subst hs
                unfold verifyGpg
                constructor
                · intro h5
                  refine ⟨d, file, sig, rfl, hf, hfile, .inl ⟨hm, ?_⟩⟩
                  cases hv : T.gpgVerify content sig with
                  | good s => exact ⟨s, rfl⟩
                  | bad b => rw [hv] at h5; cases b <;> cases h5
                  | absent => rw [hv] at h5; cases h5
                · rintro ⟨d', f', sig', h1, h2, h3, ⟨_, s, h4⟩ | ⟨h4, _⟩⟩
                  · cases h1
                    rw [hf] at h2; cases h2
                    rw [hfile] at h3; cases h3
                    rw [h4]
                  · cases h1
                    rw [hm] at h4; cases h4
              | ssh =>
                simp only [Except.ok.injEq] at hs
                subst hs
                unfold verifySsh
                constructor
                · intro h5
                  refine ⟨d, file, sig, rfl, hf, hfile, .inr ⟨hm, ?_⟩⟩
                  cases allowed with
                  | none => cases h5
                  | some a =>
                    simp only at h5
                    cases hv : T.sshVerify a content sig with
                    | good s => exact ⟨a, s, rfl, hv⟩
                    | bad b => rw [hv] at h5; cases b <;> cases h5
                    | absent => rw [hv] at h5; cases h5
                · rintro ⟨d', f', sig', h1, h2, h3, ⟨h4, _⟩ | ⟨_, a, s, h4, h5⟩⟩
                  · cases h1
                    rw [hm] at h4; cases h4
                  · cases h1
                    rw [hf] at h2; cases h2
                    rw [hfile] at h3; cases h3
                    rw [h4]
                    simp only [h5]
      | _ => rw [hf] at h; simp [asPath] at h
  | _ => cases h

theorem verifyEntries_spec (T : Tools) (allowed : Option Content) (content : Content) (p : Pkg K) (es : List (Val K)) :
    ∀ r, verifyEntries T allowed content p es = .ok r →
      ((∃ s ∈ r.signatures, s.status = .valid) ↔ ∃ e ∈ es, Accepted T allowed content p e) ∧
      (r.errors = [] ↔ ∀ e ∈ es, KnownMethod e) := by
  induction es with
  | nil => intro r h; cases h; simp
  | cons e es ih =>
    intro r h
    simp only [verifyEntries] at h
    cases he : verifyEntry T allowed content p e with
    | error x => rw [he] at h; cases h
    | ok q =>
      rw [he] at h
      simp only at h
      cases hes : verifyEntries T allowed content p es with
      | error x => rw [hes] at h; cases h
      | ok v =>
        rw [hes] at h
        obtain ⟨h1, h2⟩ := verifyEntry_valid T allowed content p e q he
        obtain ⟨h3, h4⟩ := ih v hes
        cases q with
        | inl s =>
          simp only [Except.ok.injEq] at h
          subst h
          have hk := h2.mp ⟨s, rfl⟩
          constructor
          · simp only [List.mem_cons, exists_eq_or_imp, h3, ← h1, Sum.inl.injEq, exists_eq_left']
          · simp only [List.mem_cons, forall_eq_or_imp, h4]
            exact ⟨fun h => ⟨hk, h⟩, fun h => h.2⟩
        | inr msg =>
          simp only [Except.ok.injEq] at h
          subst h
          have hk : ¬ KnownMethod e := by rw [← h2]; rintro ⟨s, h⟩; cases h
          have ha : ¬ Accepted T allowed content p e := by rw [← h1]; rintro ⟨s, h, _⟩; cases h
          constructor
          · simp [h3, ha]
          · simp [hk]

/-- the entries of the signatures section -/
def signatureEntries (d : Doc K) : List (Val K) :=
  match dget d "signatures" with
  | some (.list l) => l
  | _ => []

theorem verifyPackage_spec (N : NumText K) (D : Digest) (T : Tools) (allowed : Option Content) (p : Pkg K) (r : Verification K)
    (h : verifyPackage N D T allowed p = .ok r) :
    ((∃ s ∈ r.signatures, s.status = .valid) ↔
      ∃ e ∈ signatureEntries p.data, Accepted T allowed (contentOf N D p.data) p e) ∧
    (r.errors = [] ↔ ∀ e ∈ signatureEntries p.data, KnownMethod e) := by
  unfold verifyPackage at h
  unfold signatureEntries
  cases hs : dget p.data "signatures" with
  | none => rw [hs] at h; cases h; simp
  | some v =>
    rw [hs] at h
    cases v with
    | list l => exact verifyEntries_spec T allowed _ p l r h
    | none => cases h; simp
    | bool b => cases b <;> cases h; simp
    | str s =>
      simp only at h
      by_cases hs : s = ""
      · rw [if_pos hs] at h; cases h; simp
      · rw [if_neg hs] at h; cases h
    | dict d => cases d <;> cases h; simp
    | _ => cases h

/-- C33: `is_valid` holds exactly when some listed signature file holds a signature that the entry's tool accepts for the
package's present manifest. -/
theorem C33_is_valid (N : NumText K) (D : Digest) (T : Tools) (allowed : Option Content) (p : Pkg K) (r : Verification K)
    (h : verifyPackage N D T allowed p = .ok r) :
    r.isValid = true ↔ ∃ e ∈ signatureEntries p.data, Accepted T allowed (contentOf N D p.data) p e := by
  rw [← (verifyPackage_spec N D T allowed p r h).1]
  unfold Verification.isValid
  simp

/-- C33: the overall status is VALID exactly when, in addition, every entry names a known method. -/
theorem C33_overall (N : NumText K) (D : Digest) (T : Tools) (allowed : Option Content) (p : Pkg K) (r : Verification K)
    (h : verifyPackage N D T allowed p = .ok r) :
    r.overall = .valid ↔ (∃ e ∈ signatureEntries p.data, Accepted T allowed (contentOf N D p.data) p e) ∧
      ∀ e ∈ signatureEntries p.data, KnownMethod e := by
  obtain ⟨h1, h2⟩ := verifyPackage_spec N D T allowed p r h
  rw [← h1, ← h2]
  have ht : 0 < r.trusted ↔ ∃ s ∈ r.signatures, s.status = .valid := by
    unfold Verification.trusted
    rw [List.length_pos_iff_exists_mem]
    simp
  unfold Verification.overall
  by_cases he : r.errors = []
  · simp only [he, List.isEmpty_nil, not_true, if_false, and_true]
    rw [← ht]
    split_ifs with h3 h4 h5
    · simp [h3]
    · simp [h3]
    · simp [h3]
    · simp [h3]
  · have : r.errors.isEmpty = false := by cases hr : r.errors <;> simp_all
    simp [this, he]

/-- tools for the examples: `sig` accepts everything -/
def demoTools : Tools where
  gpgSign c k := .ok (k.getD "me" |>.toList, k.getD "me", k.getD "me")
  sshSign c k := .ok (k.toList, k, k)
  gpgVerify _ s := if s = ['b', 'a', 'd'] then .bad false else .good (String.ofList s)
  sshVerify _ _ s := if s = ['b', 'a', 'd'] then .bad true else .good (String.ofList s)

/-- C33 (violated): `is_valid` can hold while the overall status is ERROR. -/
theorem C33_disagree :
    let p : Pkg Nat := ⟨["p"], [("signatures", .list [.dict [("signature_file", .str "s")], .dict [("method", .str "pgp")]])],
      [(["p", "s"], ['o', 'k'])]⟩
    ∃ r, verifyPackage unaryText demoDigest demoTools none p = .ok r ∧ r.isValid = true ∧ r.overall = .error :=
  ⟨_, rfl, rfl, rfl⟩

/-- C33: a failed signature does not spoil the verdict: one accepted signature is enough for VALID. -/
theorem C33_invalid_ignored :
    let p : Pkg Nat := ⟨["p"], [("signatures", .list [.dict [("signature_file", .str "s")], .dict [("signature_file", .str "t")]])],
      [(["p", "s"], ['o', 'k']), (["p", "t"], ['b', 'a', 'd'])]⟩
    ∃ r, verifyPackage unaryText demoDigest demoTools none p = .ok r ∧ r.signatures.map (·.status) = [.valid, .invalid] ∧
      r.overall = .valid := ⟨_, rfl, rfl, rfl⟩

/-! ### C90 signatures are kept -/

/-- C90 (violated): signing a second time with GPG replaces the first signer's signature: whatever the tools produce, the
file the first entry refers to holds the second signature. -/
theorem C90_second_gpg_overwrites (N : NumText K) (D : Digest) (T : Tools) (t1 t2 : String) (p : Pkg K)
    (k1 k2 : Option String) (s1 s2 : Content) (n1 n2 i1 i2 : String)
    (h1 : T.gpgSign (contentOf N D p.data) k1 = .ok (s1, n1, i1)) (h2 : T.gpgSign (contentOf N D p.data) k2 = .ok (s2, n2, i2)) :
    let q := (signPackage N D T t1 p .gpg k1 none false none).2
    let r := (signPackage N D T t2 q .gpg k2 none true none).2
    signatureEntries r.data = [sigEntry n1 "gpg" i1 t1 "signatures/manifest.sig.asc",
      sigEntry n2 "gpg" i2 t2 "signatures/manifest.sig.asc"] ∧
    q.file "signatures/manifest.sig.asc" = some s1 ∧ r.file "signatures/manifest.sig.asc" = some s2 := by
  have e0 : ∀ v : Val K, addSignature p.data false v = .ok (dset p.data "signatures" (.list [v])) := by
    intro v
    unfold addSignature
    cases dget p.data "signatures" <;> simp
  have hq : (signPackage N D T t1 p .gpg k1 none false none).2 =
      ⟨p.root, dset p.data "signatures" (.list [sigEntry n1 "gpg" i1 t1 "signatures/manifest.sig.asc"]),
        dset p.files (locate p.root "signatures/manifest.sig.asc") s1⟩ := by
    unfold signPackage makeSignature
    simp only [h1, e0]
    rfl
  have hc : contentOf N D (dset p.data "signatures" (.list [sigEntry n1 "gpg" i1 t1 "signatures/manifest.sig.asc"])) =
      contentOf N D p.data := by
    unfold contentOf
    rw [C32_signatures_ignored N D _ p.data (signedPart_dset p.data _)]
  intro q r
  have hr : r = ⟨p.root, dset (dset p.data "signatures" (.list [sigEntry n1 "gpg" i1 t1 "signatures/manifest.sig.asc"]))
      "signatures" (.list [sigEntry n1 "gpg" i1 t1 "signatures/manifest.sig.asc",
        sigEntry n2 "gpg" i2 t2 "signatures/manifest.sig.asc"]),
      dset (dset p.files (locate p.root "signatures/manifest.sig.asc") s1) (locate p.root "signatures/manifest.sig.asc") s2⟩ := by
    show (signPackage N D T t2 (signPackage N D T t1 p .gpg k1 none false none).2 .gpg k2 none true none).2 = _
    rw [hq]
    unfold signPackage makeSignature
    simp only [hc, h2, addSignature, dget_dset, if_true]
    rfl
  refine ⟨?_, ?_, ?_⟩
  · rw [hr]
    unfold signatureEntries
    simp only [dget_dset, if_true]
  · show (signPackage N D T t1 p .gpg k1 none false none).2.file _ = _
    rw [hq]
    unfold Pkg.file
    simp only [dget_dset, if_true]
  · rw [hr]
    unfold Pkg.file
    simp only [dget_dset, if_true]

/-- C90 (partial): adding a signature whose file is not that of an earlier entry keeps the earlier entries and their
outcomes. Missing: entries sharing the file (`C90_second_gpg_overwrites`). -/
theorem C90_kept_partial (N : NumText K) (D : Digest) (T : Tools) (allowed : Option Content) (time : String) (p : Pkg K)
    (m : Method) (keyId keyPath name : Option String) (sig : Content) (signer key file : String)
    (hs : makeSignature T (contentOf N D p.data) m keyId keyPath = .ok (sig, signer, key, file))
    (l : List (Val K)) (hl : dget p.data "signatures" = some (.list l))
    (hfresh : ∀ e ∈ l, ∀ d f, e = .dict d → (dget d "signature_file").getD (.str "") = .str f →
      locate p.root f ≠ locate p.root file) :
    let q := (signPackage N D T time p m keyId keyPath true name).2
    signatureEntries q.data = l ++ [sigEntry (name.getD signer) m.name key time file] ∧
    ∀ e ∈ l, verifyEntry T allowed (contentOf N D q.data) q e = verifyEntry T allowed (contentOf N D p.data) p e := by
  intro q
  have hq : q = ⟨p.root, dset p.data "signatures" (.list (l ++ [sigEntry (name.getD signer) m.name key time file])),
      dset p.files (locate p.root file) sig⟩ := by
    show (signPackage N D T time p m keyId keyPath true name).2 = _
    unfold signPackage
    rw [hs]
    simp only [addSignature, hl, if_true]
  have hc : contentOf N D q.data = contentOf N D p.data := by
    unfold contentOf
    show signable (manifestHash N D (signPackage N D T time p m keyId keyPath true name).2.data) = _
    rw [C32_sign_keeps_hash]
  refine ⟨?_, ?_⟩
  · rw [hq]
    unfold signatureEntries
    simp only [dget_dset, if_true]
  · intro e he
    rw [hc]
    unfold verifyEntry
    cases e with
    | dict d =>
      simp only
      cases entryMethod d with
      | none => rfl
      | some m' =>
        simp only
        cases hf : (dget d "signature_file").getD (.str "") with
        | str f =>
          simp only [asPath]
          have hne := hfresh _ he d f rfl hf
          have : q.file f = p.file f := by
            rw [hq]
            unfold Pkg.file
            simp only
            rw [dget_dset, if_neg hne]
          unfold entryStatus
          rw [this]
        | _ => rfl
    | _ => rfl

/-! ### C91 unchecked signatures -/

/-- C91 (violated): without an allowed_signers file any text passes as an SSH signature that is valid but untrusted, for
any manifest and any tools: nothing is checked. -/
theorem C91_ssh_unchecked (T : Tools) (content sig : Content) : verifySsh T none content sig = .untrusted := rfl

/-- C91 (violated): hence a package whose signature file is garbage has the overall status VALID_UNTRUSTED. -/
theorem C91_garbage_untrusted (N : NumText K) (D : Digest) (T : Tools) (garbage : Content) :
    let p : Pkg K := ⟨["p"], [("signatures", .list [.dict [("method", .str "ssh"), ("signature_file", .str "s")]])],
      [(["p", "s"], garbage)]⟩
    ∃ r, verifyPackage N D T none p = .ok r ∧ r.overall = .untrusted := ⟨_, rfl, rfl⟩

/-- C91 (partial): VALID, on the other hand, is only reported for a signature that the tool accepted for the content. -/
theorem C91_valid_checked_partial (T : Tools) (allowed : Option Content) (content sig : Content) :
    (verifyGpg T content sig = .valid ↔ ∃ s, T.gpgVerify content sig = .good s) ∧
    (verifySsh T allowed content sig = .valid ↔ ∃ a s, allowed = some a ∧ T.sshVerify a content sig = .good s) := by
  constructor
  · unfold verifyGpg
    cases T.gpgVerify content sig with
    | good s => simp
    | bad b => cases b <;> simp
    | absent => simp
  · unfold verifySsh
    cases allowed with
    | none => simp
    | some a =>
      cases h : T.sshVerify a content sig with
      | good s => simp [h]
      | bad b => cases b <;> simp [h]
      | absent => simp [h]

/-! ### C92 tampering with the manifest -/

theorem signable_inj {a b : String} (h : signable a = signable b) : a = b := by
  unfold signable at h
  rw [List.append_assoc, List.append_assoc, List.append_cancel_left_eq, List.append_cancel_right_eq] at h
  exact String.toList_inj.mp h

/-- C92: suppose the tools accept a signature only for the content it was made for. If every signature in the package was
made for manifest `d`, and the manifest is then changed in any signed field (beyond the order of keys), verification no
longer reports a valid signature — or two different texts with the same SHA-256 digest have been found. -/
theorem C92_tamper (N : NumText K) (D : Digest) (T : Tools) (allowed : Option Content) (p : Pkg K) (d : Doc K)
    (madeFor : Content → Content → Prop)
    (hg : ∀ c s n, T.gpgVerify c s = .good n → madeFor s c) (hs : ∀ a c s n, T.sshVerify a c s = .good n → madeFor s c)
    (huniq : ∀ s c c', madeFor s c → madeFor s c' → c = c')
    (hfiles : ∀ f s, p.file f = some s → ∀ c, madeFor s c → madeFor s (contentOf N D d))
    (hd : DistinctKeys (.dict p.data)) (hchanged : ¬ Same (.dict (signedPart p.data)) (.dict (signedPart d)))
    (r : Verification K) (h : verifyPackage N D T allowed p = .ok r) :
    (r.isValid = false ∧ r.overall ≠ .valid) ∨ ∃ x y : Content, x ≠ y ∧ D "sha256" x = D "sha256" y := by
  by_cases hcol : ∃ x y : Content, x ≠ y ∧ D "sha256" x = D "sha256" y
  · exact .inr hcol
  left
  have key : ¬ ∃ e ∈ signatureEntries p.data, Accepted T allowed (contentOf N D p.data) p e := by
    rintro ⟨e, _, dd, f, s, rfl, _, h3, h4⟩
    have hmade : madeFor s (contentOf N D p.data) := by
      rcases h4 with ⟨_, n, h5⟩ | ⟨_, a, n, _, h5⟩
      · exact hg _ _ _ h5
      · exact hs _ _ _ _ h5
    have heq : contentOf N D p.data = contentOf N D d := huniq s _ _ hmade (hfiles f s h3 _ hmade)
    have hhash := signable_inj heq
    rcases C32_detects N D p.data d hd hhash with h6 | ⟨x, y, h6, h7⟩
    · exact hchanged h6
    · exact hcol ⟨x, y, h6, h7⟩
  constructor
  · rw [← Bool.not_eq_true, C33_is_valid N D T allowed p r h]
    exact key
  · rw [Ne, C33_overall N D T allowed p r h]
    exact fun h => key h.1

/-! ### C93 what verification covers -/

/-- C93 (violated): verification looks at the manifest and the signature files only: replacing any other file, such as the
geometry, changes nothing in its result. -/
theorem C93_artefacts_ignored (N : NumText K) (D : Digest) (T : Tools) (allowed : Option Content) (p : Pkg K)
    (files : List (List String × Content))
    (h : ∀ e ∈ signatureEntries p.data, ∀ d f, e = .dict d → (dget d "signature_file").getD (.str "") = .str f →
      dget files (locate p.root f) = dget p.files (locate p.root f)) :
    verifyPackage N D T allowed { p with files := files } = verifyPackage N D T allowed p := by
  unfold verifyPackage
  unfold signatureEntries at h
  cases hs : dget p.data "signatures" with
  | none => rfl
  | some v =>
    rw [hs] at h
    cases v with
    | list l =>
      simp only at h ⊢
      induction l with
      | nil => rfl
      | cons e l ih =>
        have he : verifyEntry T allowed (contentOf N D p.data) { p with files := files } e =
            verifyEntry T allowed (contentOf N D p.data) p e := by
          unfold verifyEntry
          cases e with
          | dict d =>
            simp only
            cases entryMethod d with
            | none => rfl
            | some m =>
              simp only
              cases hf : (dget d "signature_file").getD (.str "") with
              | str f =>
                simp only [asPath]
                have : ({ p with files := files } : Pkg K).file f = p.file f := h _ (by simp) d f rfl hf
                unfold entryStatus
                rw [this]
              | _ => rfl
          | _ => rfl
        simp only [verifyEntries, he]
        have ih2 : verifyEntries T allowed (contentOf N D p.data) { p with files := files } l =
            verifyEntries T allowed (contentOf N D p.data) p l := by
          clear ih he hs
          induction l with
          | nil => rfl
          | cons e' l ih3 =>
            have he' : verifyEntry T allowed (contentOf N D p.data) { p with files := files } e' =
                verifyEntry T allowed (contentOf N D p.data) p e' := by
              unfold verifyEntry
              cases e' with
              | dict d =>
                simp only
                cases entryMethod d with
                | none => rfl
                | some m =>
                  simp only
                  cases hf : (dget d "signature_file").getD (.str "") with
                  | str f =>
                    simp only [asPath]
                    have : ({ p with files := files } : Pkg K).file f = p.file f := h _ (by simp) d f rfl hf
                    unfold entryStatus
                    rw [this]
                  | _ => rfl
              | _ => rfl
            simp only [verifyEntries, he']
            rw [ih3 (fun e he => h e (by
              rcases List.mem_cons.mp he with rfl | he
              · simp
              · simp [he]))]
        rw [ih2]
    | bool b => cases b <;> rfl
    | dict d => cases d <;> rfl
    | _ => rfl

/-- C93 (partial): but validation notices: when the primary geometry has a recorded hash, replacing it by content with
another digest makes `validate_package` report failure. So verification and validation together cover the geometry. -/
theorem C93_validate_detects_partial [LinearOrder K] [Zero K] [One K] (D : Digest) (loads : Content → Bool) (p : Pkg K)
    (g d : Doc K) (path hash : String) (c : Content) (hg : dget p.data "geometry" = some (.dict g))
    (hd : dget g "primary" = some (.dict d)) (hp : dget d "path" = some (.str path))
    (hh : dget d "hash" = some (.str hash)) (hne : hash ≠ "") (hdiff : lower hash ≠ lower ("sha256:" ++ D "sha256" c))
    (strict ok : Bool) (msgs : List Msg)
    (h : validatePackage D loads { p with files := dset p.files (locate p.root path) c } strict = .ok (ok, msgs)) :
    ok = false := by
  rw [← Bool.not_eq_true, C30_verdict D loads _ strict ok msgs h]
  rintro ⟨_, ⟨g', d', path', c', h1, h2, h3, ⟨c2, h4, h5⟩, _⟩, _⟩
  simp only at h1
  rw [hg] at h1; cases h1
  rw [hd] at h2; cases h2
  rw [hp] at h3; cases h3
  have : c2 = c := by
    unfold Pkg.file at h4
    simp only at h4
    rw [dget_dset, if_pos rfl] at h4
    exact (Option.some.inj h4).symm
  subst this
  exact hdiff (h5 hash hh hne)

end Verif.Pkg
