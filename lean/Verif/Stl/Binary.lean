import Verif.Stl.Model

/-!
# Binary STL files: size, round trip, truncation (C34, C96)
-/

namespace Verif.Stl

/-! ### Specification -/

/-- does the name, after leading blanks, begin with "solid" in any case -/
def NamedSolid (name : List Char) : Prop := "solid".toList <+: (name.dropWhile isBlank).map low

/-- what single precision makes of a number -/
def single {K : Type} (pack : K → Option Word) (unpack : Word → K) (x : K) : K :=
  match pack x with
  | some w => unpack w
  | none => x

/-! ### Lemmas -/

theorem words_le4 (w : Word) (l : List Byte) : words (le4 w ++ l) = w :: words l := by
  simp only [le4, List.cons_append, List.nil_append, words, un4]
  congr 1
  apply Fin.ext
  have := w.isLt
  simp only
  omega

theorem le4_length (w : Word) : (le4 w).length = 4 := rfl

theorem words_flatten (ws : List Word) (l : List Byte) : words ((ws.map le4).flatten ++ l) = ws ++ words l := by
  induction ws with
  | nil => rfl
  | cons w ws ih =>
    simp only [List.map_cons, List.flatten_cons, List.append_assoc, words_le4, ih, List.cons_append]

theorem unpack_pack (t : Tri Word) : unpackTri (packTri t) = some t := by
  unfold unpackTri packTri
  rw [words_flatten]
  rfl

theorem packTri_length (t : Tri Word) : (packTri t).length = 50 := rfl

theorem records_length (ws : List (Tri Word)) : (ws.map packTri).flatten.length = 50 * ws.length := by
  induction ws with
  | nil => rfl
  | cons w ws ih => simp only [List.map_cons, List.flatten_cons, List.length_append, packTri_length, ih, List.length_cons]; omega

theorem header_length (name : List Char) : (header name).length = 80 := by
  simp only [header, List.length_append, List.length_map, List.length_take, List.length_replicate]
  omega

theorem binaryFile_length (name : List Char) (ws : List (Tri Word)) (h : ws.length < 4294967296) :
    (binaryFile name ws h).length = 84 + 50 * ws.length := by
  simp only [binaryFile, List.length_append, header_length, le4_length, records_length]

theorem drop80 (name : List Char) (ws : List (Tri Word)) (h : ws.length < 4294967296) :
    (binaryFile name ws h).drop 80 = le4 ⟨ws.length, h⟩ ++ (ws.map packTri).flatten := by
  unfold binaryFile
  rw [List.append_assoc, List.drop_append_of_le_length (by rw [header_length]),
    List.drop_of_length_le (by rw [header_length]), List.nil_append]

theorem drop84 (name : List Char) (ws : List (Tri Word)) (h : ws.length < 4294967296) :
    (binaryFile name ws h).drop 84 = (ws.map packTri).flatten := by
  have : (84 : Nat) = 80 + 4 := rfl
  rw [this, ← List.drop_drop, drop80]
  rfl

theorem countField_file (name : List Char) (ws : List (Tri Word)) (h : ws.length < 4294967296) :
    countField (binaryFile name ws h) = ws.length := by
  unfold countField
  rw [drop80]
  simp only [le4, List.cons_append, List.nil_append, List.take_succ_cons, List.take_zero, un4]
  omega

/-- reading records that are all there, followed by anything -/
theorem unpackAll_records (ws : List (Tri Word)) (l : List Byte) :
    unpackAll ws.length ((ws.map packTri).flatten ++ l) = ws := by
  induction ws with
  | nil => rfl
  | cons w ws ih =>
    simp only [List.map_cons, List.flatten_cons, List.length_cons, unpackAll, List.append_assoc]
    rw [if_neg (by simp only [List.length_append, packTri_length]; omega)]
    rw [List.take_append_of_le_length (by rw [packTri_length]), List.take_of_length_le (by rw [packTri_length]), unpack_pack]
    simp only
    rw [List.drop_append_of_le_length (by rw [packTri_length]), List.drop_of_length_le (by rw [packTri_length]),
      List.nil_append, ih]

theorem convert_map {K : Type} (pack : K → Option Word) (unpack : Word → K) (t : Tri K) (w : Tri Word)
    (h : convert pack t = some w) : w.map unpack = t.map (single pack unpack) := by
  unfold convert at h
  split at h
  · next a b c d e f g h' i j k l e1 e2 e3 e4 e5 e6 e7 e8 e9 e10 e11 e12 =>
    cases h
    simp only [Tri.map, V3.map, single, e1, e2, e3, e4, e5, e6, e7, e8, e9, e10, e11, e12]
  · cases h

theorem convertAll_map {K : Type} (pack : K → Option Word) (unpack : Word → K) (ts : List (Tri K)) (ws : List (Tri Word))
    (h : convertAll pack ts = some ws) : ws.map (Tri.map unpack) = ts.map (Tri.map (single pack unpack)) := by
  induction ts generalizing ws with
  | nil => cases h; rfl
  | cons t ts ih =>
    simp only [convertAll] at h
    split at h
    · next w ws' h1 h2 =>
      cases h
      simp only [List.map_cons, convert_map pack unpack t w h1, ih ws' h2]
    · cases h

theorem convertAll_length {K : Type} (pack : K → Option Word) (ts : List (Tri K)) (ws : List (Tri Word))
    (h : convertAll pack ts = some ws) : ws.length = ts.length := by
  induction ts generalizing ws with
  | nil => cases h; rfl
  | cons t ts ih =>
    simp only [convertAll] at h
    split at h
    · next w ws' h1 h2 =>
      cases h
      simp only [List.length_cons, ih ws' h2]
    · cases h

theorem contains_iff {α : Type} [DecidableEq α] (sub l : List α) : contains sub l = true ↔ sub <:+: l := by
  induction l with
  | nil => simp [contains]
  | cons x l ih =>
    simp only [contains, Bool.or_eq_true, ih, List.infix_cons_iff, List.isPrefixOf_iff_prefix]

/-- what the header's characters decode to -/
def shown (c : Char) : Char := if c.toNat < 128 then c else '?'

theorem decode_encode (c : Char) : (encodeChar c).val < 128 ∧ Char.ofNat (encodeChar c).val = shown c := by
  unfold encodeChar shown
  by_cases h : c.toNat < 128
  · rw [dif_pos h, if_pos h]
    exact ⟨h, Char.ofNat_toNat c⟩
  · rw [dif_neg h, if_neg h]
    exact ⟨by decide, by decide⟩

theorem shown_blank (c : Char) : isBlank (shown c) = isBlank c := by
  unfold shown
  by_cases h : c.toNat < 128
  · rw [if_pos h]
  · rw [if_neg h]
    have : isBlank c = false := by
      simp only [isBlank, Bool.or_eq_false_iff, decide_eq_false_iff_not, Bool.and_eq_false_iff]
      omega
    rw [this]; rfl

theorem dropWhile_shown (l : List Char) : (l.map shown).dropWhile isBlank = (l.dropWhile isBlank).map shown := by
  induction l with
  | nil => rfl
  | cons c l ih =>
    simp only [List.map_cons, List.dropWhile_cons, shown_blank]
    by_cases h : isBlank c = true
    · rw [if_pos h, if_pos h, ih]
    · rw [if_neg h, if_neg h, List.map_cons]

theorem headerChars (name : List Char) (l : List Byte) :
    (((header name ++ l).take 80).filter fun b => b.val < 128).map (fun b => Char.ofNat b.val) =
      (name.take 80).map shown ++ List.replicate (80 - (name.take 80).length) ' ' := by
  rw [List.take_append_of_le_length (by rw [header_length]), List.take_of_length_le (by rw [header_length])]
  unfold header
  simp only [List.length_map]
  rw [List.filter_append, List.map_append]
  congr 1
  · induction name.take 80 with
    | nil => rfl
    | cons c cs ih =>
      obtain ⟨h1, h2⟩ := decode_encode c
      simp only [List.map_cons, List.filter_cons, h1, decide_true, if_true, ih, h2]
  · rw [List.filter_eq_self.mpr (by intro b hb; rw [List.eq_of_mem_replicate hb]; rfl), List.map_replicate]
    rfl

theorem dropWhile_replicate_blank (n : Nat) : (List.replicate n ' ').dropWhile isBlank = [] := by
  induction n with
  | zero => rfl
  | succ n ih => rw [List.replicate_succ, List.dropWhile_cons, if_pos (by decide), ih]

theorem low_shown_eq (c : Char) (d : Char) (hd : d ∈ "solid".toList) : low (shown c) = d → low c = d := by
  unfold shown
  by_cases h : c.toNat < 128
  · rw [if_pos h]; exact id
  · rw [if_neg h]
    intro h'
    rw [← h'] at hd
    exact absurd hd (by decide)

theorem prefix_shown (s l : List Char) (hs : ∀ d ∈ s, d ∈ "solid".toList) (h : s <+: (l.map shown).map low) :
    s <+: l.map low := by
  induction s generalizing l with
  | nil => exact List.nil_prefix
  | cons d s ih =>
    cases l with
    | nil => simp at h
    | cons c l =>
      simp only [List.map_cons, List.cons_prefix_cons] at h ⊢
      exact ⟨(low_shown_eq c d (hs d (by simp)) h.1.symm).symm, ih l (fun d hd => hs d (by simp [hd])) h.2⟩

theorem prefix_spaces (s l : List Char) (n : Nat) (hs : ∀ d ∈ s, d ∈ "solid".toList)
    (h : s <+: l ++ List.replicate n ' ') : s <+: l := by
  induction s generalizing l with
  | nil => exact List.nil_prefix
  | cons d s ih =>
    cases l with
    | nil =>
      cases n with
      | zero => exact h
      | succ n =>
        rw [List.nil_append, List.replicate_succ, List.cons_prefix_cons] at h
        have := hs d (by simp)
        rw [h.1] at this
        exact absurd this (by decide)
    | cons c l =>
      rw [List.cons_append, List.cons_prefix_cons] at h
      exact List.cons_prefix_cons.mpr ⟨h.1, ih l (fun d hd => hs d (by simp [hd])) h.2⟩

theorem dropWhile_prefix {α : Type} (p : α → Bool) (a b : List α) (h : a.dropWhile p ≠ []) :
    (a ++ b).dropWhile p = a.dropWhile p ++ b := by
  induction a with
  | nil => exact absurd rfl h
  | cons x a ih =>
    rw [List.cons_append, List.dropWhile_cons, List.dropWhile_cons]
    by_cases hp : p x = true
    · rw [if_pos hp, if_pos hp]
      rw [List.dropWhile_cons, if_pos hp] at h
      exact ih h
    · rw [if_neg hp, if_neg hp]; rfl

theorem dropWhile_append_nil {α : Type} (p : α → Bool) (a b : List α) (h : a.dropWhile p = []) :
    (a ++ b).dropWhile p = b.dropWhile p := by
  induction a with
  | nil => rfl
  | cons x a ih =>
    rw [List.dropWhile_cons] at h
    by_cases hp : p x = true
    · rw [if_pos hp] at h
      rw [List.cons_append, List.dropWhile_cons, if_pos hp, ih h]
    · rw [if_neg hp] at h; cases h

/-- a file with a "solid" header has such a name -/
theorem solidHeader_name (name : List Char) (l : List Byte) (h : solidHeader (header name ++ l) = true) : NamedSolid name := by
  unfold solidHeader at h
  simp only [List.isPrefixOf_iff_prefix] at h
  rw [headerChars] at h
  unfold NamedSolid
  by_cases hb : ((name.take 80).map shown).dropWhile isBlank = []
  · rw [dropWhile_append_nil _ _ _ hb, dropWhile_replicate_blank] at h
    exact absurd h (by decide)
  · rw [dropWhile_prefix _ _ _ hb, List.map_append] at h
    have hsp : (List.replicate (80 - (name.take 80).length) ' ').map low = List.replicate (80 - (name.take 80).length) ' ' := by
      rw [List.map_replicate]; rfl
    rw [hsp] at h
    have h1 := prefix_spaces _ _ _ (fun d hd => hd) h
    rw [dropWhile_shown] at h1 hb
    have h2 := prefix_shown _ _ (fun d hd => hd) h1
    refine h2.trans ?_
    have h3 : name.dropWhile isBlank = (name.take 80).dropWhile isBlank ++ name.drop 80 := by
      conv_lhs => rw [← List.take_append_drop 80 name]
      exact dropWhile_prefix _ _ _ (fun e => hb (by rw [e]; rfl))
    rw [h3, List.map_append]
    exact List.prefix_append _ _

/-! ### C34 -/

/-- C34: a binary file with n triangles has 84 + 50 n bytes, and its count field says n. -/
theorem C34_size {K : Type} (pack : K → Option Word) (name : List Char) (ts : List (Tri K)) (data : List Byte)
    (h : writeBinary pack name ts = .ok data) : data.length = 84 + 50 * ts.length ∧ countField data = ts.length := by
  unfold writeBinary at h
  cases hc : convertAll pack ts with
  | none => rw [hc] at h; cases h
  | some ws =>
    rw [hc] at h
    simp only at h
    split at h
    · next hlen =>
      cases h
      have hl : ws.length = ts.length := convertAll_length pack ts ws hc
      rw [binaryFile_length, countField_file, hl]
      exact ⟨rfl, rfl⟩
    · cases h

/-- C34: writing triangles as binary STL and reading the file back gives the same triangles in the same order, each number
rounded to single precision. This needs a name that does not begin with "solid", or else record bytes without the words the
reader looks for. -/
theorem C34_round_trip {K : Type} (pack : K → Option Word) (unpack : Word → K) (parse : List Char → Option K)
    (name : List Char) (ts : List (Tri K)) (data : List Byte) (h : writeBinary pack name ts = .ok data)
    (hname : NamedSolid name →
      ¬ bytesOf "facet" <:+: (data.drop 84).take 116 ∧ ¬ bytesOf "vertex" <:+: (data.drop 84).take 116) :
    readTriangles unpack parse data = .ok (ts.map (Tri.map (single pack unpack))) := by
  unfold writeBinary at h
  cases hc : convertAll pack ts with
  | none => rw [hc] at h; cases h
  | some ws =>
    rw [hc] at h
    simp only at h
    split at h
    · next hlen =>
      cases h
      have hlength := binaryFile_length name ws hlen
      have hbin : isBinary (binaryFile name ws hlen) = true := by
        unfold isBinary
        rw [if_neg (by omega)]
        by_cases hs : solidHeader (binaryFile name ws hlen) = true
        · rw [if_pos hs, if_pos (by rw [hlength, countField_file]; omega)]
          obtain ⟨h1, h2⟩ := hname (solidHeader_name name _ (by rwa [binaryFile, List.append_assoc] at hs))
          rw [← contains_iff] at h1 h2
          simp only [Bool.not_eq_true] at h1 h2
          simp only [show 200 - 84 = 116 from rfl, h1, h2, Bool.or_self, Bool.false_eq_true, if_false]
        · rw [if_neg hs]
      unfold readTriangles parseBinary
      rw [if_pos hbin, if_neg (by omega), countField_file, drop84]
      have := unpackAll_records ws []
      rw [List.append_nil] at this
      rw [this]
      simp only [convertAll_map pack unpack ts ws hc]
    · cases h

/-- words that spell "fact"-like bytes for the examples -/
def word (s : String) : Word :=
  match bytesOf s with
  | [a, b, c, d] => un4 a b c d
  | _ => 0

/-- a triangle of plain numbers -/
def tri1 : Tri Word := ⟨⟨0, 0, 1⟩, ⟨0, 0, 0⟩, ⟨5, 0, 0⟩, ⟨0, 5, 0⟩⟩

/-- C34, example: two triangles survive, also with a name that begins with "solid". -/
example : ∀ name ∈ ["part".toList, "solid part".toList], ∃ data, writeBinary (K := Word) some name [tri1, tri1] = .ok data ∧
    (readTriangles (K := Word) id (fun _ => none) data).toOption = some [tri1, tri1] := by
  intro name hn
  simp only [List.mem_cons, List.not_mem_nil, or_false] at hn
  rcases hn with rfl | rfl
  · exact ⟨_, rfl, by decide +kernel⟩
  · exact ⟨_, rfl, by decide +kernel⟩

/-- C34 (violated without the hypothesis on the name): a file named "solid" whose first numbers happen to contain the bytes
of "facet" is taken for an ASCII file and read as empty. -/
theorem C34_solid_name_lost :
    ∃ data, writeBinary (K := Word) some "solid".toList [{ tri1 with normal := ⟨word "face", word "t   ", 1⟩ }] = .ok data ∧
    (readTriangles (K := Word) id (fun _ => none) data).toOption = some [] :=
  ⟨_, rfl, by decide +kernel⟩

/-! ### C96 truncated files -/

/-- C96 (violated): a binary file cut off after k of its n records is read without complaint as the first k triangles. -/
theorem C96_truncated_silently {K : Type} (pack : K → Option Word) (unpack : Word → K) (parse : List Char → Option K)
    (name : List Char) (ts : List (Tri K)) (data : List Byte) (h : writeBinary pack name ts = .ok data)
    (hname : ¬ NamedSolid name) (k : Nat) (hk : k < ts.length) (cut : Nat) (hcut : cut < 50) :
    readTriangles unpack parse (data.take (84 + 50 * k + cut)) = .ok ((ts.take k).map (Tri.map (single pack unpack))) := by
  unfold writeBinary at h
  cases hc : convertAll pack ts with
  | none => rw [hc] at h; cases h
  | some ws =>
    rw [hc] at h
    simp only at h
    split at h
    · next hlen =>
      cases h
      have hl : ws.length = ts.length := convertAll_length pack ts ws hc
      have hrec : ∀ k, ((ws.take k).map packTri).flatten.length = 50 * (ws.take k).length := fun k => records_length _
      have hrest : ∃ l : List Byte, (binaryFile name ws hlen).take (84 + 50 * k + cut) =
          header name ++ (le4 ⟨ws.length, hlen⟩ ++ (((ws.take k).map packTri).flatten ++ l)) ∧ l.length < 50 := by
        refine ⟨(((ws.drop k).map packTri).flatten).take cut, ?_, by rw [List.length_take]; omega⟩
        have e : binaryFile name ws hlen = (header name ++ le4 ⟨ws.length, hlen⟩ ++ ((ws.take k).map packTri).flatten) ++
            ((ws.drop k).map packTri).flatten := by
          unfold binaryFile
          rw [List.append_assoc _ _ ((ws.drop k).map packTri).flatten, ← List.flatten_append, ← List.map_append,
            List.take_append_drop]
        have hlen1 : (header name ++ le4 ⟨ws.length, hlen⟩ ++ ((ws.take k).map packTri).flatten).length = 84 + 50 * k := by
          rw [List.length_append, List.length_append, header_length, le4_length, hrec, List.length_take]
          omega
        rw [e, List.take_append, hlen1]
        rw [List.take_of_length_le (by rw [hlen1]; omega)]
        have : 84 + 50 * k + cut - (84 + 50 * k) = cut := by omega
        rw [this]
        simp only [List.append_assoc]
      obtain ⟨l, hd, hll⟩ := hrest
      rw [hd]
      have hbin : isBinary (header name ++ (le4 ⟨ws.length, hlen⟩ ++ (((ws.take k).map packTri).flatten ++ l))) = true := by
        unfold isBinary
        rw [if_neg (by simp only [List.length_append, header_length, le4_length]; omega), if_neg]
        intro hs
        exact hname (solidHeader_name name _ hs)
      have h80 : (header name ++ (le4 ⟨ws.length, hlen⟩ ++ (((ws.take k).map packTri).flatten ++ l))).drop 80 =
          le4 ⟨ws.length, hlen⟩ ++ (((ws.take k).map packTri).flatten ++ l) := by
        rw [List.drop_append_of_le_length (by rw [header_length]), List.drop_of_length_le (by rw [header_length]), List.nil_append]
      have h84 : (header name ++ (le4 ⟨ws.length, hlen⟩ ++ (((ws.take k).map packTri).flatten ++ l))).drop 84 =
          (((ws.take k).map packTri).flatten ++ l) := by
        have : (84 : Nat) = 80 + 4 := rfl
        rw [this, ← List.drop_drop, h80]
        rfl
      have hcount : countField (header name ++ (le4 ⟨ws.length, hlen⟩ ++ (((ws.take k).map packTri).flatten ++ l))) = ws.length := by
        unfold countField
        rw [h80]
        simp only [le4, List.cons_append, List.nil_append, List.take_succ_cons, List.take_zero, un4]
        omega
      have hun : ∀ (us : List (Tri Word)) (n : Nat), us.length ≤ n →
          unpackAll n ((us.map packTri).flatten ++ l) = us := by
        intro us
        induction us with
        | nil =>
          intro n _
          cases n with
          | zero => rfl
          | succ n => rw [unpackAll, if_pos (by simpa using hll)]
        | cons w us ih =>
          intro n hn
          cases n with
          | zero => simp at hn
          | succ n =>
            simp only [List.map_cons, List.flatten_cons, unpackAll, List.append_assoc]
            rw [if_neg (by simp only [List.length_append, packTri_length]; omega)]
            rw [List.take_append_of_le_length (by rw [packTri_length]), List.take_of_length_le (by rw [packTri_length]), unpack_pack]
            simp only
            rw [List.drop_append_of_le_length (by rw [packTri_length]), List.drop_of_length_le (by rw [packTri_length]),
              List.nil_append, ih n (by simpa using hn)]
      unfold readTriangles parseBinary
      rw [if_pos hbin, if_neg (by simp only [List.length_append, header_length, le4_length]; omega), hcount, h84,
        hun _ _ (by rw [List.length_take]; omega)]
      simp only
      rw [List.map_take, convertAll_map pack unpack ts ws hc, List.map_take]
    · cases h

theorem words_length (n : Nat) : ∀ l : List Byte, l.length ≤ n → (words l).length = l.length / 4 := by
  induction n with
  | zero => intro l h; cases l with
    | nil => rfl
    | cons a l => simp at h
  | succ n ih =>
    intro l h
    match l with
    | [] => rfl
    | [_] => simp [words]
    | [_, _] => simp [words]
    | [_, _, _] => simp [words]
    | a :: b :: c :: d :: l =>
      simp only [words, List.length_cons] at h ⊢
      rw [ih l (by omega)]
      omega

theorem unpackTri_some (l : List Byte) (h : l.length = 50) : ∃ t, unpackTri l = some t := by
  have hw := words_length 50 l (by omega)
  rw [h] at hw
  unfold unpackTri
  match hl : words l, hw with
  | [a, b, c, d, e, f, g, h, i, j, k, l], _ => exact ⟨_, rfl⟩

/-- C96 (partial): a binary file that is at least as long as its count field demands is read with exactly that many
triangles. Missing: a shorter file is not reported. -/
theorem C96_complete_partial {K : Type} (unpack : Word → K) (parse : List Char → Option K) (data : List Byte)
    (hb : isBinary data = true) (hlen : 84 + 50 * countField data ≤ data.length) :
    ∃ ts, readTriangles unpack parse data = .ok ts ∧ ts.length = countField data := by
  unfold readTriangles parseBinary
  rw [if_pos hb, if_neg (by omega)]
  refine ⟨_, rfl, ?_⟩
  rw [List.length_map]
  have key : ∀ (n : Nat) (l : List Byte), 50 * n ≤ l.length → (unpackAll n l).length = n := by
    intro n
    induction n with
    | zero => intros; rfl
    | succ n ih =>
      intro l hl
      obtain ⟨t, ht⟩ := unpackTri_some (l.take 50) (by rw [List.length_take]; omega)
      rw [unpackAll, if_neg (by omega), ht]
      simp only [List.length_cons]
      rw [ih _ (by rw [List.length_drop]; omega)]
  exact key _ _ (by rw [List.length_drop]; omega)

/-- C96, example: three records, the last one cut in the middle. -/
example : ∃ data, writeBinary (K := Word) some "part".toList [tri1, tri1, tri1] = .ok data ∧
    (readTriangles (K := Word) id (fun _ => none) (data.take 200)).toOption = some [tri1, tri1] :=
  ⟨_, rfl, by decide +kernel⟩

end Verif.Stl
