import Verif.Builtin.Num

/-!
# C323–C326: numbers, lists, aggregation
-/

namespace Verif.Builtin
open Verif.Types

/-! ## Specification -/

/-- data of a type: what Python code that is told the type may rely on. An int is a number and may stand for a float; of other types nothing is said. -/
inductive Fits {K : Type} : Data K → Ty → Prop
  | int (n : Int) : Fits (.int n) (.prim .int)
  | intFloat (n : Int) : Fits (.int n) (.prim .float)
  | flt (x : K) : Fits (.flt x) (.prim .float)
  | bool (b : Bool) : Fits (.bool b) (.prim .bool)
  | str (s : String) : Fits (.str s) (.prim .string)
  | list (l : List (Data K)) (t : Ty) (h : ∀ d ∈ l, Fits d t) : Fits (.list l) (.list t)
  | any (d : Data K) : Fits d .unknown

/-- the data of a value is of its type -/
def Typed {K : Type} (v : Val K) : Prop := Fits v.data v.ty

/-- the list value is of its type -/
def LTyped {K : Type} (l : LVal K) : Prop := ∀ d ∈ l.items, Fits d l.elem

section
variable {K : Type} [Field K] [LinearOrder K] [IsStrictOrderedRing K]

/-- the value is this number, as an int exactly if `i` is true -/
def IsNum (v : Val K) (i : Bool) (x : K) : Prop :=
  if i then v.ty = .prim .int ∧ ∃ n : Int, v.data = .int n ∧ (n : K) = x else v.ty = .prim .float ∧ v.data = .flt x

theorem pyMin_spec (m : Num K) (xs : List (Num K)) :
    pyMin m xs ∈ m :: xs ∧ ∀ y ∈ m :: xs, (pyMin m xs).val ≤ y.val := by
  induction xs generalizing m with
  | nil => simp [pyMin]
  | cons x xs ih =>
    simp only [pyMin]
    by_cases h : x.val < m.val
    · rw [if_pos h]
      obtain ⟨h1, h2⟩ := ih x
      refine ⟨List.mem_cons_of_mem _ h1, fun y hy => ?_⟩
      rcases List.mem_cons.1 hy with rfl | hy
      · exact (h2 x (by simp)).trans h.le
      · exact h2 y hy
    · rw [if_neg h]
      obtain ⟨h1, h2⟩ := ih m
      refine ⟨?_, fun y hy => ?_⟩
      · rcases List.mem_cons.1 h1 with e | e
        · rw [e]; simp
        · exact List.mem_cons_of_mem _ (List.mem_cons_of_mem _ e)
      · rcases List.mem_cons.1 hy with rfl | hy
        · exact h2 _ (by simp)
        · rcases List.mem_cons.1 hy with rfl | hy
          · exact (h2 m (by simp)).trans (not_lt.1 h)
          · exact h2 y (List.mem_cons_of_mem _ hy)

theorem pyMax_spec (m : Num K) (xs : List (Num K)) :
    pyMax m xs ∈ m :: xs ∧ ∀ y ∈ m :: xs, y.val ≤ (pyMax m xs).val := by
  induction xs generalizing m with
  | nil => simp [pyMax]
  | cons x xs ih =>
    simp only [pyMax]
    by_cases h : m.val < x.val
    · rw [if_pos h]
      obtain ⟨h1, h2⟩ := ih x
      refine ⟨List.mem_cons_of_mem _ h1, fun y hy => ?_⟩
      rcases List.mem_cons.1 hy with rfl | hy
      · exact h.le.trans (h2 x (by simp))
      · exact h2 y hy
    · rw [if_neg h]
      obtain ⟨h1, h2⟩ := ih m
      refine ⟨?_, fun y hy => ?_⟩
      · rcases List.mem_cons.1 h1 with e | e
        · rw [e]; simp
        · exact List.mem_cons_of_mem _ (List.mem_cons_of_mem _ e)
      · rcases List.mem_cons.1 hy with rfl | hy
        · exact h2 _ (by simp)
        · rcases List.mem_cons.1 hy with rfl | hy
          · exact (not_lt.1 h).trans (h2 m (by simp))
          · exact h2 y (List.mem_cons_of_mem _ hy)

theorem isNum_wrap (l : List (Num K)) (x : Num K) (hx : x ∈ l) : IsNum (wrapNum (l.all Num.isInt) x) (l.all Num.isInt) x.val := by
  cases hl : l.all Num.isInt with
  | false => simp [IsNum, wrapNum, floatVal]
  | true =>
    rw [List.all_eq_true] at hl
    have := hl x hx
    cases x with
    | int n => exact ⟨rfl, n, rfl, rfl⟩
    | flt x => simp [Num.isInt] at this

/-- C323: `min` of numbers is one of them and not greater than any; it is an int iff all of them are; without arguments it raises. -/
theorem C323_min (l : List (Num K)) :
    (l = [] → minB l = .error "ValueError") ∧
    (l ≠ [] → ∃ v, ∃ x ∈ l, minB l = .ok v ∧ IsNum v (l.all Num.isInt) x.val ∧ ∀ y ∈ l, x.val ≤ y.val) := by
  cases l with
  | nil => simp [minB]
  | cons a l =>
    refine ⟨by simp, fun _ => ?_⟩
    obtain ⟨h1, h2⟩ := pyMin_spec a l
    exact ⟨_, pyMin a l, h1, rfl, isNum_wrap _ _ h1, h2⟩

/-- C323: `max` of numbers is one of them and not less than any; it is an int iff all of them are; without arguments it raises. -/
theorem C323_max (l : List (Num K)) :
    (l = [] → maxB l = .error "ValueError") ∧
    (l ≠ [] → ∃ v, ∃ x ∈ l, maxB l = .ok v ∧ IsNum v (l.all Num.isInt) x.val ∧ ∀ y ∈ l, y.val ≤ x.val) := by
  cases l with
  | nil => simp [maxB]
  | cons a l =>
    refine ⟨by simp, fun _ => ?_⟩
    obtain ⟨h1, h2⟩ := pyMax_spec a l
    exact ⟨_, pyMax a l, h1, rfl, isNum_wrap _ _ h1, h2⟩

/-- C323: `abs` keeps ints ints and floats floats. -/
theorem C323_abs (x : Num K) : IsNum (absB x) x.isInt |x.val| := by
  cases x with
  | int n => exact ⟨rfl, |n|, rfl, by simp [Num.val]⟩
  | flt x => exact ⟨rfl, rfl⟩

variable [FloorRing K]

/-- C323: `floor`, `ceil` and `round` are ints: the greatest not above, the least not below, a nearest one; `round` takes the even one of two nearest, so it is odd in its argument. -/
theorem C323_rounding (x : Num K) :
    (∃ n : Int, floorB x = intVal n ∧ (n : K) ≤ x.val ∧ x.val < n + 1) ∧
    (∃ n : Int, ceilB x = intVal n ∧ (n : K) - 1 < x.val ∧ x.val ≤ n) ∧
    (∃ n : Int, roundB x = intVal n ∧ |x.val - n| ≤ 1 / 2 ∧ (|x.val - n| = 1 / 2 → n % 2 = 0)) := by
  refine ⟨⟨_, rfl, Int.floor_le _, Int.lt_floor_add_one _⟩,
    ⟨_, rfl, by have := Int.ceil_lt_add_one x.val; linarith, Int.le_ceil _⟩, ⟨_, rfl, ?_⟩⟩
  have hf := Int.floor_add_fract x.val
  have h0 := Int.fract_nonneg x.val
  have h1 := Int.fract_lt_one x.val
  set f := Int.fract x.val
  unfold pyRound
  split_ifs with c1 c2 c3
  · have e : x.val - (⌊x.val⌋ : K) = f := by linarith
    rw [e, abs_of_nonneg h0]
    exact ⟨c1.le, fun e => absurd e c1.ne⟩
  · have e : x.val - ((⌊x.val⌋ + 1 : Int) : K) = f - 1 := by push_cast; linarith
    rw [e, abs_of_neg (by linarith)]
    exact ⟨by linarith, fun e => by linarith⟩
  · have e : x.val - (⌊x.val⌋ : K) = f := by linarith
    rw [e, abs_of_nonneg h0]
    exact ⟨not_lt.1 c2, fun _ => c3⟩
  · have e : x.val - ((⌊x.val⌋ + 1 : Int) : K) = f - 1 := by push_cast; linarith
    rw [e, abs_of_neg (by linarith)]
    exact ⟨by linarith [not_lt.1 c1], fun _ => by omega⟩

end

/-- C323: `radians` and `degrees` undo each other; a half turn is 180 degrees; they are floats. -/
theorem C323_angles (x : ℝ) :
    radiansB (.flt 180) = piB ∧ radiansB (.flt 360) = tauB ∧
    (∃ y, radiansB (.flt x) = floatVal y ∧ degreesB (.flt y) = floatVal x) ∧ ∃ y, degreesB (.flt x) = floatVal y ∧ radiansB (.flt y) = floatVal x := by
  have hp := Real.pi_ne_zero
  refine ⟨?_, ?_, ⟨_, rfl, ?_⟩, ⟨_, rfl, ?_⟩⟩ <;> simp only [radiansB, degreesB, piB, tauB, Num.val, floatVal, Val.mk.injEq, Data.flt.injEq, and_true] <;> field_simp
  norm_num

/-- C323 (partial): `exp` is the exponential function between -700 and 700. It is constant outside, so that it never overflows: `exp(1000)` is `exp(700)`, without an error. -/
theorem C323_exp_partial (x : Num ℝ) :
    (-700 ≤ x.val → x.val ≤ 700 → expB x = floatVal (Real.exp x.val)) ∧
    (700 < x.val → expB x = expB (.int 700)) ∧ (x.val < -700 → expB x = expB (.int (-700))) := by
  refine ⟨fun h1 h2 => ?_, fun h => ?_, fun h => ?_⟩
  · unfold expB; rw [if_neg (not_lt.2 h2), if_neg (not_lt.2 h1)]
  · unfold expB; rw [if_pos h]; norm_num [Num.val]
  · unfold expB; rw [if_neg (by linarith), if_pos h]; norm_num [Num.val]

/-! ## C324: lists -/

section
variable {K : Type}

theorem rangeLen_spec (lo hi step : Int) (hs : step ≠ 0) (i : Nat) :
    i < rangeLen lo hi step ↔ if 0 < step then lo + step * i < hi else hi < lo + step * i := by
  unfold rangeLen
  by_cases h : 0 < step
  · rw [if_pos h, if_pos h]
    by_cases h2 : lo < hi
    · rw [if_pos h2, Int.lt_toNat]
      have : (i : Int) < 1 + (hi - 1 - lo) / step ↔ (i : Int) ≤ (hi - 1 - lo) / step := by omega
      rw [this, Int.le_ediv_iff_mul_le h]
      constructor <;> intro hh <;> nlinarith [hh]
    · rw [if_neg h2]
      have : 0 ≤ step * (i : Int) := Int.mul_nonneg h.le (Int.natCast_nonneg i)
      constructor <;> intro hh <;> omega
  · have h' : 0 < -step := by omega
    rw [if_neg h, if_neg h]
    by_cases h2 : hi < lo
    · rw [if_pos h2, Int.lt_toNat]
      have : (i : Int) < 1 + (lo - 1 - hi) / (-step) ↔ (i : Int) ≤ (lo - 1 - hi) / (-step) := by omega
      rw [this, Int.le_ediv_iff_mul_le h']
      constructor <;> intro hh <;> nlinarith [hh]
    · rw [if_neg h2]
      have : 0 ≤ (-step) * (i : Int) := Int.mul_nonneg h'.le (Int.natCast_nonneg i)
      have e : (-step) * (i : Int) = - (step * i) := by ring
      constructor <;> intro hh <;> omega

/-- the list counts from `a` in steps of `s` as long as the end `b` is not reached -/
def Counts (a b s : Int) (l : List Int) : Prop :=
  (∀ i (h : i < l.length), l[i] = a + s * i) ∧
  ∀ i : Nat, i < l.length ↔ if 0 < s then a + s * i < b else b < a + s * i

theorem counts_rangeList (a b s : Int) (hs : s ≠ 0) : Counts a b s (rangeList a b s) := by
  refine ⟨fun i h => by simp [rangeList], fun i => ?_⟩
  rw [← rangeLen_spec a b s hs i]; simp [rangeList]

/-- C324: `range(b)`, `range(a, b)` and `range(a, b, s)` count up from a (0) in steps of s (1) to the last number before b, down if s is negative; a step of 0 is an error. -/
theorem C324_range (a b s : Int) :
    (∃ l, rangeB (K := K) [b] = .ok ⟨.list (l.map .int), .list (.prim .int)⟩ ∧ Counts 0 b 1 l) ∧
    (∃ l, rangeB (K := K) [a, b] = .ok ⟨.list (l.map .int), .list (.prim .int)⟩ ∧ Counts a b 1 l) ∧
    (s ≠ 0 → ∃ l, rangeB (K := K) [a, b, s] = .ok ⟨.list (l.map .int), .list (.prim .int)⟩ ∧ Counts a b s l) ∧
    rangeB (K := K) [a, b, 0] = .error "ValueError" :=
  ⟨⟨_, rfl, counts_rangeList 0 b 1 (by decide)⟩, ⟨_, rfl, counts_rangeList a b 1 (by decide)⟩,
    fun hs => ⟨_, by simp [rangeB, hs], counts_rangeList a b s hs⟩, rfl⟩

example : rangeB (K := Nat) [7, 0, -3] = .ok ⟨.list [.int 7, .int 4, .int 1], .list (.prim .int)⟩ := rfl

/-- C324: the length of a list is its number of elements, also of concatenations and reversals, and of ranges. -/
theorem C324_len (a b : LVal K) (n : Nat) :
    lenB (concatB a b) = intVal (a.items.length + b.items.length) ∧ lenB (reverseB a) = lenB a ∧
    ∃ l : LVal K, rangeB (K := K) [(n : Int)] = .ok l.toVal ∧ lenB l = intVal n := by
  refine ⟨by simp [lenB, concatB], by simp [lenB, reverseB], ⟨.prim .int, _⟩, rfl, ?_⟩
  have : (rangeList 0 n 1).length = n := by
    have h := (counts_rangeList 0 n 1 (by decide)).2
    apply Nat.le_antisymm
    · have := (h n).not.2 (by simp); omega
    · by_contra hc
      have := (h (rangeList 0 n 1).length).2 (by rw [if_pos (by decide)]; omega)
      omega
  simp [lenB, this]

/-- C324: elements: `concat` has those of the first list, then those of the second; `reverse` those of the list from the end; `flatten` of a list of lists those of each in turn. -/
theorem C324_elements (a b : LVal K) (ls : List (List (Data K))) (t : Ty) :
    (concatB a b).items = a.items ++ b.items ∧
    (∀ i (h : i < a.items.length), (reverseB a).items[i]? = a.items[a.items.length - 1 - i]?) ∧
    (flattenB ⟨.list t, ls.map .list⟩).items = ls.flatten ∧ reverseB (reverseB a) = a ∧
    reverseB ⟨(concatB a b).elem, (concatB a b).items⟩ = ⟨a.elem, b.items.reverse ++ a.items.reverse⟩ := by
  refine ⟨rfl, fun i h => ?_, ?_, by simp [reverseB], by simp [reverseB, concatB]⟩
  · show a.items.reverse[i]? = _
    rw [List.getElem?_reverse h]
  · show (ls.map Data.list).flatMap spread = _
    induction ls with
    | nil => rfl
    | cons l ls ih => simp only [List.map_cons, List.flatMap_cons, List.flatten_cons, ih]; rfl

/-- C324: elements of `flatten` that are no lists are kept where they are -/
theorem C324_flatten_mixed (t : Ty) (a b : List (Data K)) (d : Data K) (h : ∀ l, d ≠ .list l) :
    (flattenB ⟨t, a ++ d :: b⟩).items = (flattenB ⟨t, a⟩).items ++ d :: (flattenB ⟨t, b⟩).items := by
  have e : spread d = [d] := by
    unfold spread
    split
    · exact absurd rfl (h _)
    · rfl
  simp [flattenB, e]

/-! ## C325: types -/

/-- C325: the numeric built-ins, aggregations, `len`, `range`, `reverse` and `flatten` return values of their type: reversing and flattening keep what is known of the elements. -/
theorem C325_typed (l : LVal K) (h : LTyped l) :
    Typed (lenB l) ∧ LTyped (reverseB l) ∧ LTyped (flattenB l) ∧ ∀ args v, rangeB (K := K) args = .ok v → Typed v := by
  have hints : ∀ l : List Int, Fits (K := K) (.list (l.map .int)) (.list (.prim .int)) := by
    intro l
    refine .list _ _ fun d hd => ?_
    obtain ⟨n, _, rfl⟩ := List.mem_map.1 hd
    exact .int n
  refine ⟨.int _, fun d hd => h d (List.mem_reverse.1 hd), fun d hd => ?_, fun args v hv => ?_⟩
  · obtain ⟨e, he, hd⟩ := List.mem_flatMap.1 hd
    have hf := h e he
    rcases l with ⟨t, items⟩
    cases t with
    | list t =>
      simp only at hf
      cases hf with
      | list l' _ hl => exact hl d hd
    | _ => exact .any d
  · match args, hv with
    | [b], hv => simp only [rangeB, Except.ok.injEq] at hv; subst hv; exact hints _
    | [a, b], hv => simp only [rangeB, Except.ok.injEq] at hv; subst hv; exact hints _
    | a :: b :: s :: _, hv =>
      simp only [rangeB] at hv
      split_ifs at hv
      simp only [Except.ok.injEq] at hv; subst hv; exact hints _

/-- C325 (partial): `concat` returns a list of its type if the second list also fits the element type of the first, in particular if both lists have the same type. -/
theorem C325_concat_partial (a b : LVal K) (ha : LTyped a) (hb : ∀ d ∈ b.items, Fits d a.elem) : LTyped (concatB a b) := by
  intro d hd
  rcases List.mem_append.1 hd with h | h
  · exact ha d h
  · exact hb d h

/-- C325 fails for `concat` of lists of different types, which its signature `list<unknown>` lets through: the result claims the element type of the first list.
`concat([1], [2.5])` is a `list<int>` with a float, and `concat([], ["a"])` a `list<int>` with a string, as `[]` is a list of ints. -/
theorem C325_concat_mixed (n : Int) (x : K) (s : String) :
    (LTyped (⟨.prim .int, [.int n]⟩ : LVal K) ∧ LTyped (⟨.prim .float, [.flt x]⟩ : LVal K) ∧
      ¬ LTyped (concatB ⟨.prim .int, [.int n]⟩ ⟨.prim .float, [.flt x]⟩)) ∧
    LTyped (⟨.prim .int, []⟩ : LVal K) ∧ LTyped (⟨.prim .string, [.str s]⟩ : LVal K) ∧
      ¬ LTyped (concatB (⟨.prim .int, []⟩ : LVal K) ⟨.prim .string, [.str s]⟩) := by
  refine ⟨⟨?_, ?_, ?_⟩, ?_, ?_, ?_⟩
  · intro d hd; simp only [List.mem_singleton] at hd; subst hd; exact .int n
  · intro d hd; simp only [List.mem_singleton] at hd; subst hd; exact .flt x
  · intro h
    have := h (.flt x) (by simp [concatB])
    cases this
  · intro d hd; simp at hd
  · intro d hd; simp only [List.mem_singleton] at hd; subst hd; exact .str s
  · intro h
    have := h (.str s) (by simp [concatB])
    cases this

end

/-! ## C326: aggregation -/

section
variable {K : Type} [Field K] [LinearOrder K] [IsStrictOrderedRing K]

theorem foldl_add (l : List (Num K)) (t : K) : l.foldl (fun t x => t + x.val) t = t + (l.map Num.val).sum := by
  induction l generalizing t with
  | nil => simp
  | cons x l ih => simp only [List.foldl_cons, ih, List.map_cons, List.sum_cons]; ring

theorem foldl_mul (l : List (Num K)) (t : K) : l.foldl (fun t x => t * x.val) t = t * (l.map Num.val).prod := by
  induction l generalizing t with
  | nil => simp
  | cons x l ih => simp only [List.foldl_cons, ih, List.map_cons, List.prod_cons]; ring

/-- C326: `sum` and `product` are the sum and the product as floats, 0 and 1 for an empty list; joining lists adds and multiplies them; order does not matter. -/
theorem C326_sum (l m : List (Num K)) :
    sumB l = floatVal (l.map Num.val).sum ∧ productB l = floatVal (l.map Num.val).prod ∧
    sumB ([] : List (Num K)) = floatVal 0 ∧ productB ([] : List (Num K)) = floatVal 1 ∧
    sumB (l ++ m) = floatVal ((l.map Num.val).sum + (m.map Num.val).sum) ∧
    productB (l ++ m) = floatVal ((l.map Num.val).prod * (m.map Num.val).prod) ∧
    (l.Perm m → sumB l = sumB m ∧ productB l = productB m) := by
  have hs : ∀ l : List (Num K), sumB l = floatVal (l.map Num.val).sum := fun l => by unfold sumB; rw [foldl_add, zero_add]
  have hp : ∀ l : List (Num K), productB l = floatVal (l.map Num.val).prod := fun l => by unfold productB; rw [foldl_mul, one_mul]
  refine ⟨hs l, hp l, hs [], hp [], by rw [hs]; simp, by rw [hp]; simp, fun h => ⟨?_, ?_⟩⟩
  · rw [hs, hs, (h.map Num.val).sum_eq]
  · rw [hp, hp, (h.map Num.val).prod_eq]

omit [Field K] [LinearOrder K] [IsStrictOrderedRing K] in
/-- C326: `any_true` says whether some element is true, `all_true` whether all are (of an empty list: no, yes). -/
theorem C326_bool (l : List Bool) : anyB (K := K) l = boolVal (decide (true ∈ l)) ∧ allB (K := K) l = boolVal (decide (false ∉ l)) := by
  induction l with
  | nil => simp [anyB, allB]
  | cons b l ih => cases b <;> simp [anyB, allB, ih.1, ih.2]

/-- C326: `min_of` and `max_of` are the least and the greatest element as floats; an empty list is an error. -/
theorem C326_extremes (l : List (Num K)) :
    (l = [] → minOfB l = .error "ValueError" ∧ maxOfB l = .error "ValueError") ∧
    (l ≠ [] → ∃ x ∈ l, ∃ y ∈ l, minOfB l = .ok (floatVal x.val) ∧ maxOfB l = .ok (floatVal y.val) ∧ ∀ z ∈ l, x.val ≤ z.val ∧ z.val ≤ y.val) := by
  cases l with
  | nil => simp [minOfB, maxOfB]
  | cons a l =>
    refine ⟨by simp, fun _ => ?_⟩
    obtain ⟨h1, h2⟩ := pyMin_spec a l
    obtain ⟨h3, h4⟩ := pyMax_spec a l
    exact ⟨_, h1, _, h3, rfl, rfl, fun z hz => ⟨h2 z hz, h4 z hz⟩⟩

end

example : minB [.flt 2, .int 1, .flt (1 : ℚ)] = .ok (floatVal 1) := by norm_num [minB, pyMin, Num.val, wrapNum, Num.isInt]

end Verif.Builtin
