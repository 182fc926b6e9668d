import Verif.Pkg.Sign
/-!
Smaller facts about packages that the larger theorems do not pin down: the range of visual properties (C30), what an SSH
signature needs and where its file goes (C92).
-/
namespace Verif.Pkg
open Verif.Dict

section
variable {K : Type} [LinearOrder K] [Zero K] [One K]

/-- C30: a colour of three numbers is accepted without a remark exactly when every component lies between 0 and 1,
both included; otherwise it is accepted with one warning. -/
theorem C30_colour_range (r g b : K) :
    colorCheck (some (.list [.num r, .num g, .num b])) =
      (true, if (0 ≤ r ∧ r ≤ 1) ∧ (0 ≤ g ∧ g ≤ 1) ∧ (0 ≤ b ∧ b ≤ 1) then [] else [(.warning, "color range")]) := by
  have h : ([.num r, .num g, .num b] : List (Val K)).all inUnit =
      decide ((0 ≤ r ∧ r ≤ 1) ∧ (0 ≤ g ∧ g ≤ 1) ∧ (0 ≤ b ∧ b ≤ 1)) := by
    simp only [List.all_cons, List.all_nil, inUnit, Bool.and_true, ← Bool.decide_and]
  have ht : (.list [.num r, .num g, .num b] : Val K).truthy = true := by simp [Val.truthy]
  unfold colorCheck
  simp only [ht, not_true_eq_false, if_false, h]
  by_cases hc : (0 ≤ r ∧ r ≤ 1) ∧ (0 ≤ g ∧ g ≤ 1) ∧ (0 ≤ b ∧ b ≤ 1)
  · simp [hc]
  · simp [hc]

/-- C30: `metallic` and `roughness` draw a warning exactly when they lie outside 0 … 1. -/
theorem C30_metallic_range (x : K) :
    unitMsgs (some (.num x)) = if 0 ≤ x ∧ x ≤ 1 then [] else [(.warning, "range")] := by
  by_cases h : 0 ≤ x ∧ x ≤ 1 <;> simp [unitMsgs, inUnit, h]

end

variable {K : Type}

/-- C92: signing with an SSH key needs the path of the key; without it the call fails and the package is unchanged. -/
theorem C92_ssh_needs_key (N : NumText K) (D : Digest) (T : Tools) (time : String) (p : Pkg K) (keyId : Option String)
    (add : Bool) (name : Option String) :
    signPackage N D T time p .ssh keyId none add name = (.error "SigningError", p) := rfl

/-- C92: the name under which a signature is stored is `signatures/manifest.sig.` followed by at most twenty characters,
none of which is a path separator, a space or an at sign: the file is directly inside the `signatures` directory. -/
theorem C92_signature_file (T : Tools) (content : Content) (m : Method) (keyId keyPath : Option String) (sig : Content)
    (signer key file : String) (h : makeSignature T content m keyId keyPath = .ok (sig, signer, key, file)) :
    ∃ tail : String, file = "signatures/manifest.sig." ++ tail ∧ tail.toList.length ≤ 20 ∧
      '/' ∉ tail.toList ∧ ' ' ∉ tail.toList ∧ '@' ∉ tail.toList := by
  have clean : ∀ s : String, (safeName s).toList.length ≤ 20 ∧
      '/' ∉ (safeName s).toList ∧ ' ' ∉ (safeName s).toList ∧ '@' ∉ (safeName s).toList := by
    intro s
    have e : (safeName s).toList = (s.toList.map fun c => if c = '@' ∨ c = ' ' ∨ c = '/' then '_' else c).take 20 := by
      unfold safeName; rw [String.toList_ofList]
    rw [e]
    have key : ∀ c : Char, c = '@' ∨ c = ' ' ∨ c = '/' →
        c ∉ (s.toList.map fun c => if c = '@' ∨ c = ' ' ∨ c = '/' then '_' else c).take 20 := by
      intro c hc hm
      have hm := List.mem_of_mem_take hm
      rw [List.mem_map] at hm
      obtain ⟨a, -, ha⟩ := hm
      by_cases h : a = '@' ∨ a = ' ' ∨ a = '/'
      · rw [if_pos h] at ha
        subst ha
        revert hc; decide
      · rw [if_neg h] at ha
        subst ha
        exact h hc
    exact ⟨by rw [List.length_take]; exact Nat.min_le_left _ _, key _ (.inr (.inr rfl)), key _ (.inr (.inl rfl)), key _ (.inl rfl)⟩
  cases m with
  | gpg =>
    unfold makeSignature at h
    simp only at h
    cases hg : T.gpgSign content keyId with
    | error e => rw [hg] at h; cases h
    | ok r =>
      obtain ⟨a, b, c⟩ := r
      rw [hg] at h
      injection h with h
      injection h with h1 h
      injection h with h2 h
      injection h with h3 h4
      refine ⟨"asc", ?_, by decide +kernel, by decide +kernel, by decide +kernel, by decide +kernel⟩
      rw [← h4]; decide +kernel
  | ssh =>
    unfold makeSignature at h
    simp only at h
    cases keyPath with
    | none => cases h
    | some kp =>
      simp only at h
      cases hg : T.sshSign content kp with
      | error e => rw [hg] at h; cases h
      | ok r =>
        obtain ⟨a, b, c⟩ := r
        rw [hg] at h
        injection h with h
        injection h with h1 h
        injection h with h2 h
        injection h with h3 h4
        exact ⟨safeName b, h4.symm, clean b⟩

/-- C92, example: the file name made for an e-mail address -/
example : safeName "jo smith/x@example.org and more" = "jo_smith_x_example.o" := by decide +kernel

end Verif.Pkg
