import Verif.Segment.Connect
import Mathlib.Data.List.Sort
import Mathlib.Data.List.Dedup
import Mathlib.Algebra.Order.Floor.Ring

/-!
# Model of `src/yapcad/manufacturing/rings.py`

Geometry over the real numbers; the placement of cuts over any linearly ordered field (so that it can also be run on rational numbers).
-/

namespace Verif.Ring
open Verif.Path (Seg Vec)
open Verif.Segment (Err connectorProfile)
open Real

/-! ## geometry -/

/-- the rotation by an angle with this cosine and sine about an axis through the origin, rings.py:89-99 and 381-410; `axis` is
`axis.lower()` -/
def rotate (axis : String) (c s : ℝ) (v : Vec) : Vec :=
  if axis = "x" then ⟨v.x, v.y * c - v.z * s, v.y * s + v.z * c⟩
  else if axis = "y" then ⟨v.x * c + v.z * s, v.y, -v.x * s + v.z * c⟩
  else ⟨v.x * c - v.y * s, v.x * s + v.y * c, v.z⟩

/-- `math.radians` -/
noncomputable def radians (d : ℝ) : ℝ := d * π / 180

/-- the tilt, applied only if the angle is more than 0.001 degrees, rings.py:63-65 and 356-360 -/
noncomputable def tilt (deg : ℝ) (axis : String) (v : Vec) : Vec :=
  if |deg| > 0.001 then rotate axis (cos (radians deg)) (sin (radians deg)) v else v

/-- `_translate_path3d` on a point, rings.py:116-141 -/
def shift (o v : Vec) : Vec := ⟨v.x + o.x, v.y + o.y, v.z + o.z⟩

/-- a point of the circle in the xy plane, rings.py:46-53 -/
noncomputable def onCircle (r a : ℝ) : Vec := ⟨r * cos a, r * sin a, 0⟩

/-- `create_ring_spine`, rings.py:18-71. The shift by the centre is skipped when the centre is the origin, which makes no
difference over the reals. -/
noncomputable def ringSpine (r : ℝ) (center : Vec) (deg : ℝ) (axis : String) (n : ℕ) : Except Err (List Seg) :=
  if n = 0 then .error .zeroDivision
  else
    let a := 2 * π / n
    .ok ((List.range n).map fun i : ℕ =>
      Seg.line (shift center (tilt deg axis (onCircle r (i * a)))) (shift center (tilt deg axis (onCircle r ((i + 1) * a)))))

/-- `compute_arc_attachment_point`, rings.py:324-370 -/
noncomputable def attachment (r angle : ℝ) (center : Vec) (deg : ℝ) (axis : String) : Vec × Vec :=
  let p := onCircle r (radians angle)
  let d : Vec := ⟨-cos (radians angle), -sin (radians angle), 0⟩
  (shift center (tilt deg axis p), tilt deg axis d)

/-- corners of the boundaries of `create_ring_profile`, rings.py:144-188, in the order in which the lines run -/
noncomputable def ringProfile (w h t : ℝ) : List (List (ℝ × ℝ)) :=
  let hw := w / 2
  let hh := h / 2
  let outer := [(-hw, -hh), (hw, -hh), (hw, hh), (-hw, hh)]
  let iw := hw - t
  let ih := hh - t
  if iw ≤ 0 ∨ ih ≤ 0 then [outer]
  else [outer, [(-iw, -ih), (-iw, ih), (iw, ih), (iw, -ih)]]

/-- `create_female_hole_solid`, rings.py:254-321: width and height of the hole and the line it is swept along -/
noncomputable def femaleHole (p d : Vec) (w h t depth f : ℝ) : Except Err ((ℝ × ℝ) × Vec × Vec) :=
  let e := f / 2
  match connectorProfile w h t f with
  | .error x => .error x
  | .ok (cw, ch) =>
    let m := √(d.x * d.x + d.y * d.y + d.z * d.z)
    let u : Vec := if 0 < m then ⟨d.x / m, d.y / m, d.z / m⟩ else d
    .ok ((cw + 2 * e, ch + 2 * e), p, ⟨p.x + u.x * depth, p.y + u.y * depth, p.z + u.z * depth⟩)

/-! ## placement of the cuts -/

section cuts
variable {K : Type} [Field K] [LinearOrder K]

/-- `is_cut_valid` for one zone, rings.py:553-566 -/
def clear (zone : K × K) (c : K) : Bool :=
  if zone.1 < 0 then !(decide (c < zone.2) || decide (c > 1 + zone.1))
  else if zone.2 > 1 then !(decide (c > zone.1) || decide (c < zone.2 - 1))
  else !(decide (zone.1 ≤ c) && decide (c ≤ zone.2))

/-- `is_cut_valid`, rings.py:551-567 -/
def valid (zones : List (K × K)) (c : K) : Bool := zones.all fun z => clear z c

/-- `find_nearest_valid_position`, rings.py:607-638: the search stops at the first position found -/
def nearest (zones : List (K × K)) (ideal : K) : Option K :=
  if valid zones ideal then some ideal
  else (List.range 1000).findSome? fun i : ℕ =>
    let off : K := (i : K) / 1000 * (1 / 2)
    if ideal + off < 1 ∧ valid zones (ideal + off) then some (ideal + off)
    else if ideal - off > 0 ∧ valid zones (ideal - off) then some (ideal - off)
    else none

/-- `sorted(set(l))` -/
def sortedSet (l : List K) : List K := l.dedup.insertionSort (· ≤ ·)

/-- the cuts nearest to the ideal ones, as long as there is one, rings.py:640-648 -/
def adjusted (zones : List (K × K)) : List K → List K
  | [] => []
  | c :: l =>
    match nearest zones c with
    | some x => x :: adjusted zones l
    | none => []

/-- the zones as parts of [0, 1], rings.py:658-667 -/
def excluded (zones : List (K × K)) : List (K × K) :=
  zones.flatMap fun z =>
    if z.1 < 0 then [(z.1 + 1, 1), (0, z.2)]
    else if z.2 > 1 then [(z.1, 1), (0, z.2 - 1)]
    else [z]

/-- pairs are compared by their first and then their second parts -/
def pairLe (a b : K × K) : Prop := a.1 < b.1 ∨ (a.1 = b.1 ∧ a.2 ≤ b.2)

instance : DecidableRel (pairLe (K := K)) := fun a b => by unfold pairLe; infer_instance

/-- merging of overlapping zones, rings.py:669-675: the list is kept with its last element first -/
def merge (l : List (K × K)) : List (K × K) :=
  (l.foldl (fun acc z =>
    match acc with
    | [] => [z]
    | m :: r => if z.1 ≤ m.2 then (m.1, max m.2 z.2) :: r else z :: m :: r) []).reverse

/-- the regions between the merged zones, rings.py:677-686 -/
def regions (merged : List (K × K)) : List (K × K) :=
  match merged with
  | [] => [(0, 1)]
  | m :: r =>
    (if m.1 > 0 then [(0, m.1)] else []) ++
    ((m :: r).zip r).map (fun ab => (ab.1.2, ab.2.1)) ++
    (match (m :: r).getLast? with
     | some z => if z.2 < 1 then [(z.2, 1)] else []
     | none => [])

/-- the candidates of the exhaustive search, rings.py:688-706 -/
def candidates (zones : List (K × K)) (ideals : List K) : List K :=
  let regs := regions (merge ((excluded zones).insertionSort pairLe))
  let a := regs.flatMap fun r => [r.1 + 1 / 1000, r.2 - 1 / 1000, (r.1 + r.2) / 2]
  let b := ideals.flatMap fun x =>
    (([0, 1 / 100, 2 / 100, 5 / 100, 1 / 10, -(1 / 100), -(2 / 100), -(5 / 100), -(1 / 10)] : List K).map (x + ·)).filter fun p => 0 < p ∧ p < 1
  sortedSet ((a ++ b).filter fun c => 0 < c ∧ c < 1 ∧ valid zones c)

/-- `itertools.combinations` -/
def combinations {α : Type} : ℕ → List α → List (List α)
  | 0, _ => [[]]
  | _ + 1, [] => []
  | n + 1, a :: l => (combinations n l).map (a :: ·) ++ combinations (n + 1) l

/-- `compute_segment_sizes`, rings.py:569-582, on sorted cuts -/
def sizes (cuts : List K) : List K :=
  match cuts with
  | [] => [1]
  | c :: l => c :: (l.zip (c :: l)).map (fun ab => ab.1 - ab.2) ++ [1 - (c :: l).getLastD 0]

/-- `segment_size_variance`, rings.py:584-588 -/
def variance (cuts : List K) : K :=
  let s := sizes cuts
  let m := s.sum / (s.length : K)
  (s.map fun x => (x - m) ^ 2).sum

/-- the first combination with the least variance, rings.py:708-721 -/
def best : List (List K) → Option (List K)
  | [] => none
  | c :: l => some (l.foldl (fun b x => if variance x < variance b then x else b) c)

variable [FloorRing K]

/-- the number of pieces, rings.py:528-532 -/
def pieceCount (circumference limit : K) (target : Option ℤ) : Except Err ℤ :=
  match target with
  | some n => .ok n
  | none => if limit = 0 then .error .zeroDivision else .ok ⌈circumference / limit⌉

/-- `compute_ring_cuts_avoiding_holes`, rings.py:496-724 -/
def ringCuts (circumference limit : K) (holes : List K) (distance : K) (target : Option ℤ) : Except Err (List K) :=
  match pieceCount circumference limit target with
  | .error e => .error e
  | .ok n =>
    if n < 2 then .ok []
    else if circumference = 0 then .error .zeroDivision
    else
      let k := (n - 1).toNat
      let d := distance / circumference
      let zones := ((holes.map (· / 360)).insertionSort (· ≤ ·)).map fun h => (h - d, h + d)
      let each : K := 1 / n
      let ideals := (List.range k).map fun i : ℕ => each * ((i + 1 : ℕ) : K)
      if ideals.all (valid zones) then .ok ideals
      else
        let adj := adjusted zones ideals
        if adj.length = k ∧ (sortedSet adj).length = k then .ok (sortedSet adj)
        else
          let cand := candidates zones ideals
          match (if cand.length ≥ k then best (combinations k cand) else none) with
          | some c => .ok c
          | none => .ok ideals

end cuts

end Verif.Ring
