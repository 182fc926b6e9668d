import Verif.Sketch.Model
import Mathlib.Tactic.NormNum
import Mathlib.Tactic.Linarith

/-!
# Sketches written and read

C104: what a sketch is after it is written to a document and loaded.
-/

namespace Verif.Sketch
open Verif.Geom

/-! ## specification -/

/-- a value the constructors of the library make (geom.py) -/
def Made : Elem → Prop
  | .point p => 0 < p.w
  | .line l => 0 < l.a.w ∧ 0 < l.b.w
  | .arc a => 0 < a.c.w ∧ 0 ≤ a.r ∧ ∀ n, a.normal = some n → 0 < n.w ∧ |mag n - 1| ≤ eps
  | .ellipse e => 0 < e.semiMinor ∧ e.semiMinor ≤ e.semiMajor ∧ mag e.normal = 1 ∧ e.normal.w = 0
  | .catmull c => 2 ≤ c.points.length
  | .nurbs n => 1 ≤ n.degree ∧ n.degree + 1 ≤ n.points.length ∧ n.weights.length = n.points.length ∧ n.knots.length = n.points.length + n.degree + 1
  | .poly ps => 3 ≤ ps.length
  | .list _ => True

/-- in the plane z = 0 and with direction as the constructor of arcs makes it by default; no points, polylines or nested lists -/
def Kept : Elem → Prop
  | .line l => (l.a.z = 0 ∧ l.a.w = 1) ∧ l.b.z = 0 ∧ l.b.w = 1
  | .arc a => a.rev = false ∧ ∀ n, a.normal = some n → Geom.dist n (pt 0 0 1) ≤ eps
  | .ellipse _ => True
  | .catmull _ => True
  | .nurbs _ => True
  | .point _ => False
  | .poly _ => False
  | .list _ => False

/-- the point below (or above) in the plane z = 0 -/
def down (p : V4) : V4 := ⟨p.x, p.y, 0, 1⟩

/-- what becomes of an element -/
def after : Elem → List Elem
  | .point _ => []
  | .line l => [.line ⟨down l.a, down l.b⟩]
  | .arc a => [.arc { a with rev := false }]
  | .ellipse e => [.ellipse e]
  | .catmull c => [.catmull c]
  | .nurbs n => [.nurbs n]
  | .poly ps => List.zipWith (fun p q => .line ⟨down p, down q⟩) ps ps.tail
  | .list _ => []

/-- can be written: no arc in a plane that is not parallel to xy (up to epsilon) and no nested list of several elements -/
def Writable : Elem → Prop
  | .arc a => ∀ n, a.normal = some n → Geom.dist n (pt 0 0 1) ≤ eps
  | .list es => es.length < 2
  | _ => True

/-! ## lemmas -/

theorem chain_eq (ps : List V4) : chain (ps.map flat) = List.zipWith (fun p q => Elem.line ⟨down p, down q⟩) ps ps.tail := by
  induction ps with
  | nil => rfl
  | cons p ps ih =>
    cases ps with
    | nil => rfl
    | cons q ps =>
      simp only [List.map_cons, chain, List.tail_cons, List.zipWith_cons_cons] at ih ⊢
      rw [ih]
      rfl

theorem mkArc_ok (a : Arc) (h : Made (.arc a)) (s e : ℝ) : mkArc a.c a.r s e a.normal = .ok ⟨a.c, a.r, s, e, false, a.normal⟩ := by
  obtain ⟨c, r, s', e', rev, n⟩ := a
  obtain ⟨h1, h2, h3⟩ := h
  simp only at h1 h2 h3
  cases n with
  | none => simp [mkArc, ispoint, h1, not_lt.mpr h2]
  | some n =>
    have := h3 n rfl
    simp [mkArc, ispoint, h1, not_lt.mpr h2, this]

theorem elem_after (e : Elem) (hm : Made e) (hw : Writable e) : ∃ ps, saveElem e = .ok ps ∧ load ps = .ok (after e) := by
  cases e with
  | point p => exact ⟨[], rfl, rfl⟩
  | line l => exact ⟨_, rfl, by simp [load, loadPrim, after, flat, down, pt]⟩
  | arc a =>
    have hn : normalOk a := fun n h => not_lt.mpr (hw n h)
    simp only [saveElem, saveArc, hn, not_true, if_false]
    by_cases hc : iscircle a
    · rw [if_pos hc]
      refine ⟨_, rfl, ?_⟩
      simp only [load, loadPrim, mkArc_ok a hm, one, after]
      simp [hc.1, hc.2]
    · rw [if_neg hc]
      refine ⟨_, rfl, ?_⟩
      simp only [load, loadPrim, mkArc_ok a hm, one, after]
      simp
  | ellipse e =>
    obtain ⟨h1, h2, h3, h4⟩ := hm
    refine ⟨_, rfl, ?_⟩
    have : ¬ (1 : ℝ) < 1e-10 := by norm_num
    simp only [load, loadPrim, mkEllipse, h3, h1, not_true, if_false, this, lt_of_lt_of_le h1 h2, div_one, not_lt.mpr h2, one, after, List.append_nil]
    rw [show (⟨e.normal.x, e.normal.y, e.normal.z, 0⟩ : V4) = e.normal from by rw [← h4]]
  | catmull c =>
    refine ⟨_, rfl, ?_⟩
    have h : ¬ c.points.length < 2 := not_lt.mpr hm
    simp [load, loadPrim, mkCatmull, h, one, after]
  | nurbs n =>
    obtain ⟨h1, h2, h3, h4⟩ := hm
    refine ⟨_, rfl, ?_⟩
    have a1 : ¬ n.points.length = 0 := by omega
    have a2 : ¬ n.degree < 1 := by omega
    have a3 : ¬ n.points.length < n.degree + 1 := by omega
    simp [load, loadPrim, mkNurbs, a1, a2, a3, h3, h4, one, after]
  | poly ps => exact ⟨_, rfl, by simp [load, loadPrim, after, chain_eq]⟩
  | list es =>
    have h : es.length < 2 := hw
    exact ⟨[], by simp [saveElem, h], rfl⟩

theorem load_append (a b : List Prim) : load (a ++ b) = match load a with
    | .error x => .error x
    | .ok es => match load b with
      | .error x => .error x
      | .ok fs => .ok (es ++ fs) := by
  induction a with
  | nil => simp only [List.nil_append, load]; cases load b <;> rfl
  | cons p ps ih =>
    simp only [List.cons_append, load, ih]
    cases loadPrim p with
    | error x => rfl
    | ok es =>
      cases load ps with
      | error x => rfl
      | ok fs =>
        cases load b with
        | error x => rfl
        | ok gs => simp

/-! ## theorems -/

/-- C104: what a sketch is after it is written and loaded, for every sketch that can be written: lines are put into the plane z = 0, polylines become lines in that plane, reversed arcs become forward arcs, and points (and nested lists
of one element) are lost; all else is kept, in order. -/
theorem C104_result (es : List Elem) (hm : ∀ e ∈ es, Made e) (hw : ∀ e ∈ es, Writable e) : ∃ ps, save es = .ok ps ∧ load ps = .ok (es.flatMap after) := by
  induction es with
  | nil => exact ⟨[], rfl, rfl⟩
  | cons e es ih =>
    obtain ⟨ps, h1, h2⟩ := elem_after e (hm e (by simp)) (hw e (by simp))
    obtain ⟨qs, h3, h4⟩ := ih (fun x hx => hm x (by simp [hx])) (fun x hx => hw x (by simp [hx]))
    refine ⟨ps ++ qs, by simp [save, h1, h3], ?_⟩
    rw [load_append, h2, h4]
    rfl

theorem after_kept (e : Elem) (h : Kept e) : after e = [e] := by
  cases e with
  | line l =>
    obtain ⟨⟨x, y, z, w⟩, ⟨x', y', z', w'⟩⟩ := l
    obtain ⟨⟨h1, h2⟩, h3, h4⟩ := h
    simp only at h1 h2 h3 h4
    simp [after, down, h1, h2, h3, h4]
  | arc a =>
    obtain ⟨c, r, s, e, rev, n⟩ := a
    have : rev = false := h.1
    simp [after, this]
  | ellipse e => rfl
  | catmull c => rfl
  | nurbs n => rfl
  | point p => exact h.elim
  | poly ps => exact h.elim
  | list es => exact h.elim

/-- C104 (the part that holds): a sketch of lines in the plane z = 0, forward arcs parallel to it, ellipses and splines is loaded as it was written. Missing: points, polylines, nested lists, reversed arcs, lines off the plane. -/
theorem C104_roundtrip_partial (es : List Elem) (hm : ∀ e ∈ es, Made e) (hk : ∀ e ∈ es, Kept e) : ∃ ps, save es = .ok ps ∧ load ps = .ok es := by
  obtain ⟨ps, h1, h2⟩ := C104_result es hm (fun e he => by
    have := hk e he
    cases e with
    | arc a => exact this.2
    | list es => exact this.elim
    | _ => trivial)
  refine ⟨ps, h1, ?_⟩
  rw [h2]
  congr 1
  clear h1 h2 hm
  induction es with
  | nil => rfl
  | cons e es ih => rw [List.flatMap_cons, after_kept e (hk e (by simp)), ih (fun x hx => hk x (by simp [hx]))]; rfl

/-- C104: writing fails exactly if there is an arc in a plane that is not parallel to xy or a nested list of at least two elements -/
theorem C104_writable (es : List Elem) : (∃ x, save es = .error x) ↔ ∃ e ∈ es, ¬ Writable e := by
  have one : ∀ e, (∃ x, saveElem e = .error x) ↔ ¬ Writable e := by
    intro e
    cases e with
    | arc a =>
      have : normalOk a ↔ Writable (.arc a) := by simp [normalOk, Writable]
      rw [← this]
      by_cases h : normalOk a
      · simp only [saveElem, saveArc, h, not_true, if_false, iff_false]
        split <;> simp
      · simp [saveElem, saveArc, h]
    | list es =>
      by_cases h : es.length < 2
      · simp [saveElem, Writable, h]
      · simp [saveElem, Writable, h]
    | _ => simp [saveElem, Writable]
  induction es with
  | nil => simp [save]
  | cons e es ih =>
    have ih' : (∃ x, save es = .error x) ↔ ∃ e ∈ es, ¬ Writable e := ih
    rw [List.exists_mem_cons_iff, ← one e, ← ih']
    simp only [save]
    cases saveElem e with
    | error x => simp
    | ok ps =>
      cases save es with
      | error x => simp
      | ok qs => simp

/-- C104 fails: an arc with reversed direction is loaded as the arc the other way round: its point at `u` is the point of the original at `1 - u`. -/
theorem C104_reversed (a : Arc) (hm : Made (.arc a)) (hw : Writable (.arc a)) (hr : a.rev = true) :
    ∃ ps b, save [.arc a] = .ok ps ∧ load ps = .ok [.arc b] ∧ ∀ u, samplearc b u = samplearc a (1 - u) := by
  obtain ⟨ps, h1, h2⟩ := C104_result [.arc a] (by simpa using hm) (by simpa using hw)
  refine ⟨ps, { a with rev := false }, h1, by simpa [after] using h2, fun u => ?_⟩
  simp [samplearc, normalOk, sampleAngle, hr, span]

/-- C104 fails: a sketch that is a polyline (a list of points) has nothing in it once written, so it is missing when the document is loaded -/
theorem C104_points_lost (arcs : Elem → List (ℝ × ℝ)) (ps : List V4) : ∃ s, saveSketch arcs (ps.map .point) = .ok s ∧ loadSketch s = .ok [] := by
  have h : save (ps.map .point) = .ok [] := by
    induction ps with
    | nil => rfl
    | cons p ps ih => simp [save, saveElem, ih]
  have h' : (ps.map Elem.point).flatMap (polylineOf arcs) = [] := by simp [polylineOf]
  refine ⟨⟨[], []⟩, ?_, rfl⟩
  simp only [saveSketch, h]
  rw [h']

/-- C104: a document of sketches is loaded as the list of what each of them gives, in order, without those that give nothing -/
theorem C104_document (arcs : Elem → List (ℝ × ℝ)) (docs : List (List Elem)) (hm : ∀ es ∈ docs, ∀ e ∈ es, Made e) (hw : ∀ es ∈ docs, ∀ e ∈ es, Writable e) :
    ∃ ss, docs.mapM (saveSketch arcs) = .ok ss ∧ loadAll ss = .ok ((docs.map fun es => es.flatMap after).filter (· ≠ [])) := by
  induction docs with
  | nil => exact ⟨[], rfl, rfl⟩
  | cons es docs ih =>
    obtain ⟨ss, h1, h2⟩ := ih (fun x hx => hm x (by simp [hx])) (fun x hx => hw x (by simp [hx]))
    obtain ⟨ps, h3, h4⟩ := C104_result es (hm es (by simp)) (hw es (by simp))
    refine ⟨⟨ps, es.flatMap (polylineOf arcs)⟩ :: ss, by simp [List.mapM_cons, saveSketch, h3, h1, bind, Except.bind, pure, Except.pure], ?_⟩
    simp only [loadAll, loadSketch, h4, h2, List.map_cons]
    cases hc : es.flatMap after with
    | cons x xs => simp
    | nil =>
      have : (es.flatMap (polylineOf arcs)).flatMap chain = [] := by
        rw [List.flatMap_eq_nil_iff]
        intro l hl
        rw [List.mem_flatMap] at hl
        obtain ⟨e, he, hl⟩ := hl
        have ha := List.flatMap_eq_nil_iff.mp hc e he
        cases e with
        | point p => simp [polylineOf] at hl
        | list es => simp [polylineOf] at hl
        | poly qs =>
          have := hm es (by simp) _ he
          match qs, this with
          | a :: b :: c :: qs, _ => simp [after] at ha
        | _ => simp [after] at ha
      simp [this]

/-- C104: a sketch without primitives (as in older documents) is read from its polylines: a line from each point to the next, in the plane z = 0 -/
theorem C104_polylines (polys : List (List (ℝ × ℝ))) (h : ∃ l ∈ polys, 2 ≤ l.length) :
    loadSketch ⟨[], polys⟩ = .ok [polys.flatMap fun l => List.zipWith (fun p q => Elem.line ⟨⟨p.1, p.2, 0, 1⟩, ⟨q.1, q.2, 0, 1⟩⟩) l l.tail] := by
  have hc : ∀ l : List (ℝ × ℝ), chain l = List.zipWith (fun p q => Elem.line ⟨⟨p.1, p.2, 0, 1⟩, ⟨q.1, q.2, 0, 1⟩⟩) l l.tail := by
    intro l
    have := chain_eq (l.map fun p => pt p.1 p.2)
    rw [List.map_map, show flat ∘ (fun p : ℝ × ℝ => pt p.1 p.2) = id from rfl, List.map_id] at this
    rw [this, ← List.map_tail, List.zipWith_map]
    rfl
  have hf : polys.flatMap chain ≠ [] := by
    obtain ⟨l, hl, h2⟩ := h
    intro hn
    have := List.flatMap_eq_nil_iff.mp hn l hl
    match l, h2 with
    | a :: b :: l, _ => simp [chain] at this
  have : polys.flatMap chain = polys.flatMap fun l => List.zipWith (fun p q => Elem.line ⟨⟨p.1, p.2, 0, 1⟩, ⟨q.1, q.2, 0, 1⟩⟩) l l.tail := by
    congr 1
    funext l
    exact hc l
  simp only [loadSketch, load]
  rw [if_neg hf, this]

/-- C104: older readers, which know only the polylines, get the lines and polylines of a sketch with all their points in order -/
theorem C104_preview (arcs : Elem → List (ℝ × ℝ)) (es : List Elem) (he : es ≠ []) (hp : ∀ e ∈ es, (∃ l, e = .line l) ∨ ∃ a b ps, e = .poly (a :: b :: ps))
    (s : Entry) (h : saveSketch arcs es = .ok s) :
    loadSketch ⟨[], s.polylines⟩ = .ok [es.flatMap fun e => match e with
      | .line l => [Elem.line ⟨⟨l.a.x, l.a.y, 0, 1⟩, ⟨l.b.x, l.b.y, 0, 1⟩⟩]
      | .poly ps => List.zipWith (fun p q : V4 => Elem.line ⟨⟨p.x, p.y, 0, 1⟩, ⟨q.x, q.y, 0, 1⟩⟩) ps ps.tail
      | _ => []] := by
  have hpl : s.polylines = es.flatMap (polylineOf arcs) := by
    unfold saveSketch at h
    split at h
    · cases h
    · injection h with h; rw [← h]
  rw [C104_polylines, hpl]
  · congr 2
    rw [List.flatMap_assoc]
    apply List.flatMap_congr
    intro e hm
    rcases hp e hm with ⟨l, rfl⟩ | ⟨a, b, ps, rfl⟩
    · simp [polylineOf, flat]
    · simp only [polylineOf, List.flatMap_cons, List.flatMap_nil, List.append_nil]
      rw [← List.map_tail, List.zipWith_map]
      rfl
  · obtain ⟨e, es', rfl⟩ := List.exists_cons_of_ne_nil he
    rw [hpl]
    rcases hp e (by simp) with ⟨l, rfl⟩ | ⟨a, b, ps, rfl⟩
    · exact ⟨[flat l.a, flat l.b], by simp [polylineOf], by simp⟩
    · exact ⟨(a :: b :: ps).map flat, by simp [polylineOf], by simp⟩

/-- C104: the document says of an arc whether it is reversed: the orientation mark is -2 for a reversed arc and -1 for a forward one -/
theorem C104_orientation (a : Arc) (ps : List Prim) (h : save [.arc a] = .ok ps) :
    ∃ o n, (ps = [.circle a.c a.r o n] ∨ ps = [.arc a.c a.r a.s a.e o n]) ∧ (a.rev = true → o = -2) ∧ (a.rev = false → o = -1) := by
  refine ⟨orientation a, a.normal, ?_, by intro h; simp [orientation, h], by intro h; simp [orientation, h]⟩
  simp only [save, saveElem, saveArc] at h
  split_ifs at h <;> cases h <;> simp

/-! ## cases -/

/-- a triangle of a line, a forward arc and a spline keeps; a line above the plane, a reversed arc and a polyline can be written -/
example : (∀ e ∈ [Elem.line ⟨pt 0 0, pt 1 0⟩, .arc ⟨pt 0 0, 1, 0, 90, false, none⟩, .catmull ⟨[pt 0 1, pt 0 0], false, 0.5⟩], Made e ∧ Kept e) ∧
    (∀ e ∈ [Elem.line ⟨pt 0 0 5, pt 1 0 5⟩, .arc ⟨pt 0 0, 1, 0, 90, true, none⟩, .poly [pt 0 1, pt 0 0, pt 1 1]], Made e ∧ Writable e ∧ ¬ Kept e) := by
  constructor <;> intro e he <;> simp only [List.mem_cons, List.not_mem_nil, or_false] at he <;> rcases he with rfl | rfl | rfl <;>
    simp [Made, Kept, Writable, pt]

/-- a line above the plane is not loaded as it was -/
example : ∃ ps, save [.line ⟨pt 0 0 5, pt 1 0 5⟩] = .ok ps ∧ load ps ≠ .ok [.line ⟨pt 0 0 5, pt 1 0 5⟩] := by
  refine ⟨_, rfl, ?_⟩
  simp [load, loadPrim, flat, pt]

end Verif.Sketch
