import Verif.Pipe.Witness2

/-!
# C163, C164: what does hold of assignments and of list elements
-/

namespace Verif.Pipe

open Verif.Interp hiding Param
open Verif.Dict

variable {F : Type}

theorem lookup_update {x : String} {v : Val F} : ∀ {fr fr' : List (Frame F)}, update fr x v = some fr' →
    lookup fr' x = some v ∧ fr'.length = fr.length ∧ ∀ y, y ≠ x → lookup fr' y = lookup fr y
  | [], _, h => by simp [update] at h
  | f :: fs, fr', h => by
    simp only [update] at h
    split at h
    next hd =>
      cases h
      refine ⟨by simp [lookup, dget_dset_same], rfl, fun y hy => ?_⟩
      simp only [lookup, dget_dset_other _ _ _ _ hy]
    next hd =>
      simp only [Option.map_eq_some_iff] at h
      obtain ⟨g, hg, rfl⟩ := h
      obtain ⟨h1, h2, h3⟩ := lookup_update hg
      have hn : dget f x = none := by simpa using hd
      refine ⟨by simp [lookup, hn, h1], by simp [h2], fun y hy => ?_⟩
      simp only [lookup, h3 y hy]

theorem update_some {x : String} {v : Val F} : ∀ {fr : List (Frame F)}, (lookup fr x).isSome = true → ∃ fr', update fr x v = some fr'
  | [], h => by simp [lookup] at h
  | f :: fs, h => by
    simp only [update]
    split
    · exact ⟨_, rfl⟩
    next hd =>
      have hn : dget f x = none := by simpa using hd
      simp only [lookup, hn] at h
      obtain ⟨g, hg⟩ := update_some (v := v) h
      exact ⟨f :: g, by simp [hg]⟩

/-- **C163** for assignments the parser takes for such, e.g. `(t) = e`: whatever the nesting of scopes, the variable then has
the value of `e`, in the scope where it was declared, and no other variable changes. Missing: `t = e`, which the parser takes
for a declaration (`C163_violated`). -/
theorem C163_assignment_partial (E : Enc F) (H : Host F) (P : Prog F) (x : Parser.Name) (e : Parser.Expr) (n : Nat) (s s' : St F) (v : Val F)
    (hv : (interp H P n).ev (trE E e) s = (.ok v, s')) (hx : (lookup s'.ctx.frames (str x)).isSome = true) :
    ∃ s'', (interp H P (n + 1)).ex (trS E (.assign (.ident x) e)) s = (.ok (), s'') ∧
      lookup s''.ctx.frames (str x) = some v ∧ s''.ctx.frames.length = s'.ctx.frames.length ∧
      ∀ y, y ≠ str x → lookup s''.ctx.frames y = lookup s'.ctx.frames y := by
  obtain ⟨fr, hfr⟩ := update_some (v := v) hx
  refine ⟨{ s' with ctx := { s'.ctx with frames := fr } }, ?_, lookup_update hfr⟩
  change Interp.bind ((interp H P n).ev (trE E e)) (fun v => assignVar (str x) v) s = _
  simp only [Interp.bind, hv, assignVar, modCtx, hfr]

/-- a variable of an outer scope is assigned -/
example : ((interp demoHost ⟨[], 9⟩ 2).ex (trS demoEnc (.assign (.ident (Checker.nm "t")) (.lit "INT_LITERAL" (.int 3))))
    { (st0 : St Int) with ctx := freshCtx 0 [("t", ⟨.int 1, .prim .int, false⟩)] }).1 = .ok () := rfl

/-- operators only use the data and the type of a value -/
theorem binVal_emitted (H : Host F) (op : Op) (d : Data F) (t : Types.Ty) (a b : Bool) (r : Val F) :
    binVal H op ⟨d, t, a⟩ r = binVal H op ⟨d, t, b⟩ r := by
  cases op <;> rfl

/-- **C164** for list literals whose elements have one type: an element read by index is used in arithmetic and comparisons as
the value that was put in; the same for the loop variable of a loop over the list. Missing: lists whose elements have different
types, and lists given as arguments or concatenated (`C164_violated`). -/
theorem C164_elements_partial (H : Host F) (op : Op) (v : Val F) (vs : List (Val F)) (h : ∀ w ∈ vs, w.ty = v.ty) (i : Nat) (w r : Val F)
    (hw : (v :: vs)[i]? = some w) (e : Bool) :
    (∃ u, indexVal H (listLitVal (v :: vs)) ⟨.int i, .prim .int, e⟩ = .ok u ∧ binVal H op u r = binVal H op w r) ∧
    (∃ ds, (listLitVal (v :: vs)).data = .list ds ∧ ∃ d, ds[i]? = some d ∧
      binVal H op ⟨d, elemTy (listLitVal (v :: vs)).ty, false⟩ r = binVal H op w r) := by
  have hty : w.ty = v.ty := by
    rcases List.mem_cons.1 (List.mem_of_getElem? hw) with rfl | h'
    · rfl
    · exact h w h'
  have hd : ((v :: vs).map (·.data))[i]? = some w.data := by rw [List.getElem?_map, hw]; rfl
  have hb : binVal H op ⟨w.data, v.ty, false⟩ r = binVal H op w r := by
    rw [← hty]
    exact binVal_emitted H op w.data w.ty false w.emitted r
  refine ⟨⟨⟨w.data, v.ty, false⟩, ?_, hb⟩, ⟨(v :: vs).map (·.data), rfl, w.data, hd, hb⟩⟩
  simp only [indexVal, toInt, listLitVal, listVal, getItem, Int.toNat_natCast, Int.natCast_nonneg, if_true, hd]

end Verif.Pipe
