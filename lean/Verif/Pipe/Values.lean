import Verif.Pipe.Frag
import Mathlib.Tactic.FinCases

/-!
# Operators on values of the core types
-/

namespace Verif.Pipe

open Verif.Types (Ty accepts commonType isNumeric)
open Verif.Interp
open Verif.Checker (BinTy UnTy)

variable {F : Type}

theorem core_cases {t : Ty} (h : core t = true) : (∃ p, t = .prim p) ∨ ∃ p, t = .list (.prim p) := by
  cases t with
  | prim p => exact .inl ⟨p, rfl⟩
  | list t => cases t with
    | prim p => exact .inr ⟨p, rfl⟩
    | _ => simp [core, isPrim, isPrimList] at h
  | _ => simp [core, isPrim, isPrimList] at h

theorem accepts_prim {p : Types.Prim} {u : Ty} (h : accepts (.prim p) u = true) :
    ∃ q, u = .prim q ∧ (p = q ∨ (p = .float ∧ q = .int)) := by
  cases u <;> simp [accepts] at h <;> exact ⟨_, rfl, h⟩

theorem accepts_list {t u : Ty} (h : accepts (.list t) u = true) : ∃ w, u = .list w ∧ accepts t w = true := by
  cases u <;> simp [accepts] at h <;> exact ⟨_, rfl, h⟩

theorem accepts_prim_iff {p q : Types.Prim} : accepts (.prim p) (.prim q) = true ↔ (p = q ∨ (p = .float ∧ q = .int)) := by
  simp [accepts]

theorem accepts_trans {t u w : Ty} (ht : core t = true) (h1 : accepts t u = true) (h2 : accepts u w = true) :
    accepts t w = true := by
  rcases core_cases ht with ⟨p, rfl⟩ | ⟨p, rfl⟩
  · obtain ⟨q, rfl, hq⟩ := accepts_prim h1
    obtain ⟨r, rfl, hr⟩ := accepts_prim h2
    rw [accepts_prim_iff]
    rcases hq with rfl | ⟨rfl, rfl⟩
    · exact hr
    · rcases hr with rfl | ⟨h, _⟩
      · exact .inr ⟨rfl, rfl⟩
      · cases h
  · obtain ⟨u, rfl, hu⟩ := accepts_list h1
    obtain ⟨w, rfl, hw⟩ := accepts_list h2
    obtain ⟨q, rfl, hq⟩ := accepts_prim hu
    obtain ⟨r, rfl, hr⟩ := accepts_prim hw
    rw [show accepts (.list (.prim p)) (.list (.prim r)) = accepts (.prim p) (.prim r) by simp [accepts], accepts_prim_iff]
    rcases hq with rfl | ⟨rfl, rfl⟩
    · exact hr
    · rcases hr with rfl | ⟨h, _⟩
      · exact .inr ⟨rfl, rfl⟩
      · cases h

theorem Fits.up {t u : Ty} {v : Val F} (ht : core t = true) (h : accepts t u = true) (hv : Fits u v) : Fits t v :=
  ⟨accepts_trans ht h hv.1, hv.2⟩

theorem exact_up {p q : Types.Prim} {d : Data F} (h : p = q ∨ (p = .float ∧ q = .int)) (hd : Exact (.prim q) d) :
    Exact (.prim p) d := by
  rcases h with rfl | ⟨rfl, rfl⟩
  · exact hd
  · cases d <;> simp [Exact] at hd ⊢

/-- the data of a value that fits a type is what the type promises -/
theorem Fits.exact {t : Ty} {v : Val F} (ht : core t = true) (hv : Fits t v) : Exact t v.data := by
  obtain ⟨d, u, e⟩ := v
  obtain ⟨h1, h2, -⟩ := hv
  dsimp only at h1 h2 ⊢
  rcases core_cases ht with ⟨p, rfl⟩ | ⟨p, rfl⟩
  · obtain ⟨q, rfl, hq⟩ := accepts_prim h1
    exact exact_up hq h2
  · obtain ⟨u, rfl, hu⟩ := accepts_list h1
    obtain ⟨q, rfl, hq⟩ := accepts_prim hu
    cases d with
    | list l => exact fun d hd => exact_up hq (h2 d hd)
    | _ => simp [Exact] at h2

theorem fits_int {v : Val F} (h : Fits (.prim .int) v) : ∃ n e, v = ⟨.int n, .prim .int, e⟩ := by
  obtain ⟨d, u, e⟩ := v
  obtain ⟨h1, h2, -⟩ := h
  obtain ⟨q, hu, hq⟩ := accepts_prim h1
  dsimp only at hu h2
  subst hu
  rcases hq with rfl | ⟨h, _⟩
  · cases d <;> simp [Exact] at h2 <;> exact ⟨_, _, rfl⟩
  · cases h

theorem fits_num {t : Ty} {v : Val F} (ht : isNumeric t = true) (h : Fits t v) :
    (∃ n e, v = ⟨.int n, .prim .int, e⟩) ∨ (∃ n e, v = ⟨.int n, .prim .float, e⟩) ∨ ∃ x e, v = ⟨.flt x, .prim .float, e⟩ := by
  have : t = .prim .int ∨ t = .prim .float := by
    cases t with
    | prim p => cases p <;> simp [isNumeric] at ht ⊢
    | _ => simp [isNumeric] at ht
  rcases this with rfl | rfl
  · exact .inl (fits_int h)
  · obtain ⟨d, u, e⟩ := v
    obtain ⟨h1, h2, -⟩ := h
    obtain ⟨q, hu, hq⟩ := accepts_prim h1
    dsimp only at hu h2
    subst hu
    rcases hq with rfl | ⟨_, rfl⟩
    · cases d <;> simp [Exact] at h2
      · exact .inr (.inl ⟨_, _, rfl⟩)
      · exact .inr (.inr ⟨_, _, rfl⟩)
    · cases d <;> simp [Exact] at h2
      exact .inl ⟨_, _, rfl⟩

theorem fits_bool {v : Val F} (h : Fits (.prim .bool) v) : ∃ b, v = ⟨.bool b, .prim .bool, false⟩ := by
  obtain ⟨d, u, e⟩ := v
  obtain ⟨h1, h2, h3⟩ := h
  obtain ⟨q, hu, hq⟩ := accepts_prim h1
  dsimp only at hu h2 h3
  subst hu
  rcases hq with rfl | ⟨h, _⟩
  · obtain rfl := h3 rfl
    cases d <;> simp [Exact] at h2
    exact ⟨_, rfl⟩
  · cases h

theorem fits_list {t : Ty} {v : Val F} (h : Fits (.list t) v) :
    ∃ u l e, v = ⟨.list l, .list u, e⟩ ∧ accepts t u = true ∧ ∀ d ∈ l, Exact u d := by
  obtain ⟨d, u, e⟩ := v
  obtain ⟨h1, h2, -⟩ := h
  obtain ⟨w, hu, hw⟩ := accepts_list h1
  dsimp only at hu h2
  subst hu
  cases d with
  | list l => exact ⟨w, l, e, rfl, hw, h2⟩
  | _ => simp [Exact] at h2

theorem Fits.int (n : Int) (e : Bool) : Fits (F := F) (.prim .int) ⟨.int n, .prim .int, e⟩ := by
  simp [Fits, accepts, Exact]

theorem Fits.intFloat (n : Int) (e : Bool) : Fits (F := F) (.prim .float) ⟨.int n, .prim .int, e⟩ := by
  simp [Fits, accepts, Exact]

theorem Fits.flt (x : F) (e : Bool) : Fits (.prim .float) ⟨.flt x, .prim .float, e⟩ := by
  simp [Fits, accepts, Exact]

theorem Fits.bool (b : Bool) : Fits (F := F) (.prim .bool) (boolVal b) := by
  simp [Fits, accepts, Exact, boolVal]

/-- a result that fits, or a harmless exception -/
def Res (X : Err → Prop) (t : Ty) : Except Err (Val F) → Prop
  | .ok v => Fits t v
  | .error e => Benign X e

theorem truthy_bool (H : Host F) (b : Bool) : truthy H ⟨.bool b, .prim .bool, false⟩ = .ok b := rfl

/-- an exponent that keeps integers integers -/
def ExpOk (r : Val F) : Prop := (∃ n : Nat, r.data = .int n ∧ r.ty = .prim .int) ∨ ∃ x, r.data = .flt x

/-- `a op b` of numbers gives a number, and an integer for two integers unless it is a quotient or a negative power -/
theorem dataOp_num {X : Err → Prop} (H : Host F) {op : Op} (hop : op ∈ [Op.plus, .minus, .star, .slash, .percent, .dslash, .dstar])
    {a b : Data F} (ha : (∃ n, a = .int n) ∨ ∃ x, a = .flt x) (hb : (∃ n, b = .int n) ∨ ∃ x, b = .flt x) :
    match dataOp H op a b with
    | .ok d => ((∃ n, d = .int n) ∨ ∃ x, d = .flt x) ∧
        ((∃ n, a = .int n) → (∃ n, b = .int n) → op ≠ .slash → (op = .dstar → ∃ n : Nat, b = .int n) → ∃ n, d = .int n)
    | .error e => Benign X e := by
  rcases ha with ⟨m, rfl⟩ | ⟨x, rfl⟩ <;> rcases hb with ⟨n, rfl⟩ | ⟨y, rfl⟩
  · simp only [dataOp, asInt]
    cases hi : intOp H op m n with
    | ok d =>
      fin_cases hop <;> simp only [intOp] at hi
      · cases hi; simp
      · cases hi; simp
      · cases hi; simp
      · split at hi <;> cases hi; simp
      · split at hi <;> cases hi; simp
      · split at hi <;> cases hi; simp
      · split at hi
        · cases hi; simp
        · split at hi <;> cases hi
          refine ⟨.inr ⟨_, rfl⟩, fun _ _ _ h => ?_⟩
          obtain ⟨k, hk⟩ := h rfl
          cases hk
          omega
    | error e =>
      have : e = .other "ZeroDivisionError" := by
        fin_cases hop <;> simp only [intOp] at hi
        · cases hi
        · cases hi
        · cases hi
        · split at hi <;> cases hi; rfl
        · split at hi <;> cases hi; rfl
        · split at hi <;> cases hi; rfl
        · split at hi
          · cases hi
          · split at hi <;> cases hi; rfl
      subst this
      exact .zeroDivision
  all_goals
    simp only [dataOp, asInt, asFloat]
    split
    next d hd =>
      split at hd
      · cases hd; exact ⟨.inr ⟨_, rfl⟩, fun h1 h2 => by simp at h1 h2⟩
      · cases hd
    next e he =>
      split at he
      · cases he
      · cases he; exact .arithmetic

theorem floatVal_num {X : Err → Prop} (H : Host F) {d : Data F} (h : (∃ n, d = .int n) ∨ ∃ x, d = .flt x) :
    Res X (.prim .float) (floatVal H d) := by
  rcases h with ⟨n, rfl⟩ | ⟨x, rfl⟩ <;> exact Fits.flt _ _

theorem intVal_num {X : Err → Prop} (H : Host F) {d : Data F} (h : (∃ n, d = .int n) ∨ ∃ x, d = .flt x) :
    Res X (.prim .int) (intVal H d) := by
  rcases h with ⟨n, rfl⟩ | ⟨x, rfl⟩
  · exact Fits.int _ _
  · simp only [intVal, toInt]
    cases H.toInt x with
    | some n => exact Fits.int _ _
    | none => exact .value

theorem res_float {X : Err → Prop} {r : Except Err (Val F)} (h : Res X (.prim .int) r) : Res X (.prim .float) r := by
  cases r with
  | ok v => exact Fits.up rfl rfl h
  | error e => exact h

/-- the shapes of numbers -/
def IsNum (v : Val F) : Prop := ((∃ n, v.data = .int n) ∨ ∃ x, v.data = .flt x) ∧ (v.ty = .prim .int ∨ v.ty = .prim .float) ∧
  (v.ty = .prim .int → ∃ n, v.data = .int n)

theorem fits_isNum {t : Ty} {v : Val F} (ht : isNumeric t = true) (h : Fits t v) : IsNum v := by
  rcases fits_num ht h with ⟨n, e, rfl⟩ | ⟨n, e, rfl⟩ | ⟨n, e, rfl⟩ <;> simp [IsNum]

theorem bothInt_iff {l r : Val F} : bothInt l r = true ↔ l.ty = .prim .int ∧ r.ty = .prim .int := by simp [bothInt]

/-- arithmetic on two numbers: the result is an integer if both are of type int -/
theorem numResult_res {X : Err → Prop} (H : Host F) {l r : Val F} {d : Data F} (hd : (∃ n, d = .int n) ∨ ∃ x, d = .flt x) :
    Res X (.prim .float) (numResult H l r d) ∧
    (l.ty = .prim .int → r.ty = .prim .int → Res X (.prim .int) (numResult H l r d)) := by
  simp only [numResult]
  constructor
  · split
    · exact res_float (intVal_num H hd)
    · exact floatVal_num H hd
  · intro h1 h2
    rw [if_pos (bothInt_iff.2 ⟨h1, h2⟩)]
    exact intVal_num H hd

/-- the arithmetic operators other than `/` and `//` -/
theorem arith_res {X : Err → Prop} (H : Host F) {op : Op} (hop : op ∈ [Op.plus, .minus, .star, .percent, .dstar]) {l r : Val F}
    (hl : IsNum l) (hr : IsNum r) (hx : op = .dstar → ExpOk r) :
    Res X (.prim .float) (binVal H op l r) ∧
    (l.ty = .prim .int → r.ty = .prim .int → Res X (.prim .int) (binVal H op l r)) := by
  have hd := dataOp_num (X := X) H (op := op) (by fin_cases hop <;> simp) hl.1 hr.1
  have hstr : (decide (l.ty = .prim .string) || decide (r.ty = .prim .string)) = false := by
    rcases hl.2.1 with h | h <;> rcases hr.2.1 with h' | h' <;> simp [h, h']
  have hlist : (isListTy l.ty && isListTy r.ty) = false := by
    rcases hl.2.1 with h | h <;> simp [h, isListTy]
  have key : binVal H op l r = match dataOp H op l.data r.data with
      | .ok d => if op = .dstar then arithVal H op l r d else numResult H l r d
      | .error e => .error e := by
    fin_cases hop
    · simp only [binVal, plusOp, hstr, hlist]
      cases dataOp H .plus l.data r.data <;> rfl
    · simp only [binVal]
      cases dataOp H .minus l.data r.data <;> rfl
    · simp only [binVal]
      cases dataOp H .star l.data r.data <;> rfl
    · simp only [binVal]
      cases dataOp H .percent l.data r.data <;> rfl
    · simp only [binVal]
      cases dataOp H .dstar l.data r.data <;> rfl
  rw [key]
  cases ho : dataOp H op l.data r.data with
  | error e =>
    rw [ho] at hd
    exact ⟨hd, fun _ _ => hd⟩
  | ok d =>
    rw [ho] at hd
    simp only
    split
    next he =>
      subst he
      simp only [arithVal]
      have hx := hx rfl
      constructor
      · split
        · exact res_float (intVal_num H hd.1)
        · exact floatVal_num H hd.1
      · intro h1 h2
        have hb := bothInt_iff.2 ⟨h1, h2⟩
        have hn : nonneg H r.data = true := by
          rcases hx with ⟨n, hn, _⟩ | ⟨x, hx⟩
          · simp [hn, nonneg, asInt]
          · obtain ⟨n, hn⟩ := hr.2.2 h2
            simp [hn] at hx
        rw [hb, hn]
        exact intVal_num H hd.1
    · exact numResult_res H hd.1

theorem slash_res {X : Err → Prop} (H : Host F) {l r : Val F} (hl : IsNum l) (hr : IsNum r) :
    Res X (.prim .float) (binVal H .slash l r) := by
  have hd := dataOp_num (X := X) H (op := .slash) (by simp) hl.1 hr.1
  simp only [binVal]
  cases ho : dataOp H .slash l.data r.data with
  | error e => rw [ho] at hd; exact hd
  | ok d => rw [ho] at hd; exact floatVal_num H hd.1

theorem dslash_res {X : Err → Prop} (H : Host F) {l r : Val F} (hl : IsNum l) (hr : IsNum r) :
    Res X (.prim .int) (binVal H .dslash l r) := by
  have hd := dataOp_num (X := X) H (op := .dslash) (by simp) hl.1 hr.1
  simp only [binVal]
  cases ho : dataOp H .dslash l.data r.data with
  | error e => rw [ho] at hd; exact hd
  | ok d => rw [ho] at hd; exact intVal_num H hd.1

theorem cmp_res {X : Err → Prop} (H : Host F) {op : Op} (hop : op ∈ [Op.lt, .gt, .le, .ge]) {l r : Val F}
    (hl : IsNum l) (hr : IsNum r) : Res X (.prim .bool) (binVal H op l r) := by
  have : ∃ b, dataCmp H op l.data r.data = .ok b := by
    rcases hl.1 with ⟨m, hm⟩ | ⟨x, hx⟩ <;> rcases hr.1 with ⟨n, hn⟩ | ⟨y, hy⟩ <;>
      simp [dataCmp, asInt, asFloat, *]
  obtain ⟨b, hb⟩ := this
  fin_cases hop <;> simp only [binVal] <;> (first | rw [hb]; exact Fits.bool _)

theorem eq_res {X : Err → Prop} (H : Host F) {op : Op} (hop : op = .eq ∨ op = .ne) (l r : Val F) :
    Res X (.prim .bool) (binVal H op l r) := by
  rcases hop with rfl | rfl <;> exact Fits.bool _

theorem logic_res {X : Err → Prop} (H : Host F) {op : Op} (hop : op = .and ∨ op = .or) {l r : Val F}
    (hl : Fits (.prim .bool) l) (hr : Fits (.prim .bool) r) : Res X (.prim .bool) (logicVal H op l r) := by
  obtain ⟨b, rfl⟩ := fits_bool hl
  obtain ⟨c, rfl⟩ := fits_bool hr
  rcases hop with rfl | rfl <;> cases b <;> cases c <;> exact Fits.bool _

theorem arith_op (H : Host F) {op : String} {o : Op} (hop : op ∈ ["PLUS", "MINUS", "STAR", "PERCENT", "DOUBLE_STAR"])
    (ho : opOf op = some o) : o ∈ [Op.plus, .minus, .star, .percent, .dstar] ∧ (o = .dstar → op = "DOUBLE_STAR") ∧
    ∀ l r, opVal H o l r = binVal H o l r := by
  simp only [List.mem_cons, List.mem_nil_iff, or_false] at hop
  rcases hop with rfl | rfl | rfl | rfl | rfl <;> cases ho <;> exact ⟨by simp, by simp, fun _ _ => rfl⟩

theorem cmp_op (H : Host F) {op : String} {o : Op} (hop : op ∈ ["LT", "GT", "LE", "GE"])
    (ho : opOf op = some o) : o ∈ [Op.lt, .gt, .le, .ge] ∧ ∀ l r, opVal H o l r = binVal H o l r := by
  simp only [List.mem_cons, List.mem_nil_iff, or_false] at hop
  rcases hop with rfl | rfl | rfl | rfl <;> cases ho <;> exact ⟨by simp, fun _ _ => rfl⟩

/-- a binary operator on values of the types the checker allows -/
theorem opVal_res {X : Err → Prop} (H : Host F) {op : String} {o : Op} (ho : opOf op = some o) {a b t : Ty} (h : BinTy op a b t)
    (ha : core a = true) (hlst : op = "PLUS" → isPrim a = true) {l r : Val F} (hl : Fits a l) (hr : Fits b r)
    (hx : op = "DOUBLE_STAR" → ExpOk r) : Res X t (opVal H o l r) := by
  cases h with
  | int hop =>
    have hl' := fits_isNum rfl hl
    have hr' := fits_isNum rfl hr
    obtain ⟨m, e, rfl⟩ := fits_int hl
    obtain ⟨n, e', rfl⟩ := fits_int hr
    obtain ⟨h1, h2, h3⟩ := arith_op H hop ho
    rw [h3]
    exact (arith_res H h1 hl' hr' (fun h => hx (h2 h))).2 rfl rfl
  | div h1 h2 =>
    cases ho
    exact slash_res H (fits_isNum h1 hl) (fits_isNum h2 hr)
  | floorDiv h1 h2 =>
    cases ho
    exact dslash_res H (fits_isNum h1 hl) (fits_isNum h2 hr)
  | floatL hop h2 =>
    have hl' := fits_isNum rfl hl
    have hr' := fits_isNum h2 hr
    obtain ⟨h1, h2, h3⟩ := arith_op H hop ho
    rw [h3]
    exact (arith_res H h1 hl' hr' (fun h => hx (h2 h))).1
  | floatR hop =>
    have hl' := fits_isNum rfl hl
    have hr' := fits_isNum rfl hr
    obtain ⟨h1, h2, h3⟩ := arith_op H hop ho
    rw [h3]
    exact (arith_res H h1 hl' hr' (fun h => hx (h2 h))).1
  | geoScalar => simp [core, isPrim, isPrimList] at ha
  | geoSum => simp [core, isPrim, isPrimList] at ha
  | concat => simp [isPrim] at hlst
  | compare hop h1 h2 =>
    have hl' := fits_isNum h1 hl
    have hr' := fits_isNum h2 hr
    obtain ⟨h3, h4⟩ := cmp_op H hop ho
    rw [h4]
    exact cmp_res H h3 hl' hr'
  | equal hop =>
    rcases hop with rfl | rfl <;> cases ho
    · exact eq_res H (.inl rfl) l r
    · exact eq_res H (.inr rfl) l r
  | logic hop =>
    rcases hop with rfl | rfl <;> cases ho
    · exact logic_res H (.inl rfl) hl hr
    · exact logic_res H (.inr rfl) hl hr

/-- a unary operator -/
theorem unVal_res {X : Err → Prop} (H : Host F) {a : Ty} {v : Val F} (hv : Fits a v) :
    (a = .prim .bool → Res X (.prim .bool) (unVal H .not v)) ∧ (isNumeric a = true → Res X a (unVal H .minus v)) := by
  constructor
  · rintro rfl
    obtain ⟨b, rfl⟩ := fits_bool hv
    exact Fits.bool _
  · intro ha
    have : a = .prim .int ∨ a = .prim .float := by
      cases a with
      | prim p => cases p <;> simp [isNumeric] at ha ⊢
      | _ => simp [isNumeric] at ha
    rcases this with rfl | rfl
    · obtain ⟨n, e, rfl⟩ := fits_int hv
      exact Fits.int _ _
    · rcases fits_num ha hv with ⟨n, e, rfl⟩ | ⟨n, e, rfl⟩ | ⟨x, e, rfl⟩
      · exact Fits.intFloat _ _
      · exact Fits.flt _ _
      · exact Fits.flt _ _

/-- indexing a list -/
theorem indexVal_res {X : Err → Prop} (H : Host F) {t : Ty} {v i : Val F} (ht : core (.list t) = true) (hv : Fits (.list t) v)
    (hi : Fits (.prim .int) i) : Res X t (indexVal H v i) := by
  obtain ⟨u, l, e, rfl, hu, hl⟩ := fits_list hv
  obtain ⟨n, e', rfl⟩ := fits_int hi
  have hmem : ∀ d ∈ l, Fits t (⟨d, u, false⟩ : Val F) := fun d hd => ⟨hu, hl d hd, fun _ => rfl⟩
  simp only [indexVal, toInt, getItem]
  split
  next e he =>
    split at he
    · split at he <;> cases he; exact .index
    · split at he
      · cases he; exact .index
      · split at he <;> cases he; exact .index
  next d he =>
    split at he
    · split at he <;> cases he
      exact hmem _ (List.mem_of_getElem? ‹_›)
    · split at he
      · cases he
      · split at he <;> cases he
        exact hmem _ (List.mem_of_getElem? ‹_›)

theorem rangeVal_res {X : Err → Prop} (H : Host F) {a b : Val F} (ha : Fits (.prim .int) a) (hb : Fits (.prim .int) b) :
    Res X (.list (.prim .int)) (rangeVal H a b) := by
  obtain ⟨m, e, rfl⟩ := fits_int ha
  obtain ⟨n, e', rfl⟩ := fits_int hb
  refine ⟨rfl, ?_, by simp⟩
  intro d hd
  simp only [List.mem_map] at hd
  obtain ⟨k, -, rfl⟩ := hd
  trivial

end Verif.Pipe
