import Mathlib.Data.Rat.Defs
import Mathlib.Algebra.Order.Ring.Rat
import Verif.Model.Outcome
/-
The repair of polygons that cross themselves: third_party/correct_boost_polygon.hpp, called by the constructor of
`Polygon` (src/utils/polygon.cpp 193-222) when the concave hull is not valid.

Coordinates are rational and computed exactly.  The self intersections found by boost (`self_turns`) are a parameter
(`Turn`), and so are its set operations.  `std::map` and `std::set` are sorted lists.
-/
namespace RgbdSlam.PolygonRepair

/-- `boost::geometry::model::d2::point_xy<double>`. -/
abbrev Pt := ℚ × ℚ

/-- `boost::geometry::comparable_distance`: the square of the distance. -/
def dist2 (a b : Pt) : ℚ := (a.1 - b.1) * (a.1 - b.1) + (a.2 - b.2) * (a.2 - b.2)

/-- Sum over the edges, half of the cross products; positive for a clockwise ring. -/
def edgeSum : List Pt → ℚ
  | p :: q :: l => (q.1 * p.2 - p.1 * q.2) / 2 + edgeSum (q :: l)
  | _ => 0

/-- `boost::geometry::area` of a ring: 0 with less than four points. -/
def area (r : List Pt) : ℚ := if r.length < 4 then 0 else edgeSum r

/-- `pseudo_vertice_key`, third_party/correct_boost_polygon.hpp 61-75. -/
structure Key where
  index1 : ℕ
  scale : ℚ
  index2 : ℕ
  reroute : Bool
deriving DecidableEq

/-- `compare_pseudo_vertice_key`, third_party/correct_boost_polygon.hpp 77-99. -/
def Key.less (a b : Key) : Bool :=
  if a.index1 < b.index1 then true
  else if b.index1 < a.index1 then false
  else if a.scale < b.scale then true
  else if b.scale < a.scale then false
  else if b.index2 < a.index2 then true
  else if a.index2 < b.index2 then false
  else if a.reroute && !b.reroute then true
  else false

/-- `pseudo_vertice`, third_party/correct_boost_polygon.hpp 101-107.  The link is the default key when it is not
given. -/
structure Vertex where
  p : Pt
  link : Key := ⟨0, 0, 0, false⟩
deriving DecidableEq

/-- `std::map::emplace`: nothing is done when the key is there. -/
def emplace (k : Key) (v : Vertex) : List (Key × Vertex) → List (Key × Vertex)
  | [] => [(k, v)]
  | e :: l => if k.less e.1 then (k, v) :: e :: l else if e.1.less k then e :: emplace k v l else e :: l

/-- `std::set::insert`. -/
def insertKey (k : Key) : List Key → List Key
  | [] => [k]
  | e :: l => if k.less e then k :: e :: l else if e.less k then e :: insertKey k l else e :: l

/-- `std::map::find`; `none` is the end. -/
def find (k : Key) (vs : List (Key × Vertex)) : Option (Key × Vertex) := vs.find? fun e => decide (e.1 = k)

/-- One self intersection: its position and the two edges (`seg_id.segment_index` of both operations). -/
structure Turn where
  p : Pt
  first : ℕ
  second : ℕ
deriving DecidableEq

/-- The map and the set that `dissolve_find_intersections` fills. -/
structure Table where
  vertices : List (Key × Vertex)
  starts : List Key
deriving DecidableEq

/-- third_party/correct_boost_polygon.hpp 154: the test that an intersection has to pass. -/
def kept (offset1 offset2 length : ℚ) : Bool :=
  (decide (0 < offset1) && decide (offset1 < length)) || (decide (0 < offset2) && decide (offset2 < length))

/-- third_party/correct_boost_polygon.hpp 144-166, the loop body.  An edge that is not in the ring is read out of
bounds. -/
def addTurn (ring : List Pt) (t : Table) (turn : Turn) : Outcome Table :=
  let i := min turn.first turn.second
  let j := max turn.first turn.second
  match ring[i]?, ring[j]? with
  | some a, some b =>
    let offset1 := dist2 turn.p a
    let offset2 := dist2 turn.p b
    if kept offset1 offset2 (dist2 a b) then
      let keyJ : Key := ⟨j, offset2, i, false⟩
      let keyI : Key := ⟨i, offset1, j, false⟩
      .ok { vertices := emplace keyI { p := turn.p }
              (emplace ⟨j, offset2, i, true⟩ ⟨turn.p, keyI⟩
              (emplace keyJ { p := turn.p }
              (emplace ⟨i, offset1, j, true⟩ ⟨turn.p, keyJ⟩ t.vertices)))
            starts := insertKey keyI (insertKey keyJ t.starts) }
    else .ok t
  | _, _ => .ub

/-- third_party/correct_boost_polygon.hpp 119-167, `dissolve_find_intersections`. -/
def findIntersections (ring : List Pt) (turns : List Turn) : Outcome Table :=
  let table : Table :=
    { vertices := ring.zipIdx.foldl (fun vs e => emplace ⟨e.2, 0, e.2, false⟩ { p := e.1 } vs) []
      starts := [] }
  turns.foldl (fun r turn => r.bind fun t => addTurn ring t turn) (.ok table)

/-- The points and the places in the ring of the loops that may close, the ring and the pieces. -/
structure Walk where
  ring : List Pt
  starts : List (Pt × ℕ)
  startKeys : List Key
  pieces : List (List Pt × ℚ)
deriving DecidableEq

/-- third_party/correct_boost_polygon.hpp 240-245, `push_point`. -/
def pushPoint (ring : List Pt) (p : Pt) : List Pt :=
  match ring.getLast? with
  | none => ring ++ [p]
  | some q => if 0 < dist2 q p then ring ++ [p] else ring

/-- third_party/correct_boost_polygon.hpp 248-254, `push_ring`, with a minimal area of 0. -/
def pushRing (pieces : List (List Pt × ℚ)) (ring : List Pt) : List (List Pt × ℚ) :=
  if 0 < |area ring| then pieces ++ [(ring, area ring)] else pieces

/-- third_party/correct_boost_polygon.hpp 262-279, `is_closed`: the loop over the starting points.  The argument is a
reference to the last point of the ring, which is destroyed with the inner ring (`alive` is then false): reading it
after this is undefined. -/
def isClosed (p : Pt) : (alive : Bool) → List Pt → List (List Pt × ℚ) → List (Pt × ℕ) →
    Outcome (Bool × List Pt × List (List Pt × ℚ))
  | _, ring, pieces, [] => .ok (false, ring, pieces)
  | alive, ring, pieces, s :: l =>
    if s.2 + 1 < ring.length then
      if !alive then .ub
      else if dist2 s.1 p = 0 then
        if s.2 = 0 then .ok (true, ring, pieces)
        else isClosed p false (ring.take s.2) (pushRing pieces (ring.drop s.2)) l
      else isClosed p alive ring pieces l
    else isClosed p alive ring pieces l

/-- `++i`, and the first element after the last one: third_party/correct_boost_polygon.hpp 300-306. -/
def next (vs : List (Key × Vertex)) (k : Key) : Option (Key × Vertex) :=
  match (vs.dropWhile fun e => !decide (e.1 = k)).drop 1 with
  | e :: _ => some e
  | [] => vs.head?

/-- third_party/correct_boost_polygon.hpp 281-309: the loop that follows the boundary from `e`.  Following the end of
the map is undefined. -/
def follow (t : Table) : ℕ → Key × Vertex → Walk → Outcome Walk
  | 0, _, _ => .outOfFuel
  | fuel + 1, e, w =>
    let ring := pushPoint w.ring e.2.p
    let startKeys := w.startKeys.filter fun k => !decide (k = e.1)
    let starts := if e.1 ∈ t.starts then w.starts ++ [(e.2.p, ring.length - 1)] else w.starts
    match (if e.1.reroute then find e.2.link t.vertices else next t.vertices e.1), ring.getLast? with
    | some e', some p =>
      (isClosed p true ring w.pieces starts).bind fun r =>
        if r.1 then .ok { ring := r.2.1, starts := starts, startKeys := startKeys, pieces := r.2.2 }
        else follow t fuel e' { ring := r.2.1, starts := starts, startKeys := startKeys, pieces := r.2.2 }
    | _, _ => .ub

/-- third_party/correct_boost_polygon.hpp 235-313, the loop over the starting points that are left; `inner` bounds the
length of the inner loop. -/
def generate (t : Table) (inner : ℕ) : ℕ → List Key → List (List Pt × ℚ) → Outcome (List (List Pt × ℚ))
  | _, [], pieces => .ok pieces
  | 0, _ :: _, _ => .outOfFuel
  | fuel + 1, k :: keys, pieces =>
    match find k t.vertices with
    | none => .ub
    | some e =>
      (follow t inner e { ring := [], starts := [(e.2.p, 0)], startKeys := k :: keys, pieces := pieces }).bind fun w =>
        generate t inner fuel w.startKeys (pushRing w.pieces w.ring)

/-- third_party/correct_boost_polygon.hpp 203-208, `correct_close`. -/
def close (ring : List Pt) : List Pt :=
  match ring.head?, ring.getLast? with
  | some a, some b => if a = b then ring else ring ++ [a]
  | _, _ => ring

/-- third_party/correct_boost_polygon.hpp 186-198, `correct_orientation` for the clockwise order of `polygon`
(src/utils/polygon.hpp 21-26). -/
def orient (ring : List Pt) : List Pt := if area ring < 0 then ring.reverse else ring

/-- third_party/correct_boost_polygon.hpp 318-357, `correct` of a ring, with a minimal area of 0.  There is no NaN in
the model, so that `correct_invalid` (172-181) removes nothing.  `selfTurns` is boost's `self_turns`. -/
def correctRing (selfTurns : List Pt → List Turn) (fuel : ℕ) (ring : List Pt) : Outcome (List (List Pt × ℚ)) :=
  if ring.length < 3 then .ok []
  else
    let r := orient (close ring)
    (findIntersections r (selfTurns r)).bind fun t =>
      match t.starts with
      | [] => .ok (if 0 < |area r| then [(r, area r)] else [])
      | _ :: _ => generate t fuel fuel t.starts []

/-! ## Assembling the pieces -/

section Assemble

variable {α : Type*}

/-- third_party/correct_boost_polygon.hpp 33-52, the loop of `result_combine`: `seen` are the elements before index
`i`, in reverse order, `rest` the ones from `i` to the one before the last, `last` is `result.back()`. -/
def combineLoop (intersects : α → α → Bool) (union : α → α → List α) (seen rest : List α) (last : α) : List α :=
  match rest with
  | [] => seen.reverse ++ [last]
  | a :: rest =>
    if intersects a last then
      match union a last with
      | [u] => combineLoop intersects union seen rest u
      | _ => combineLoop intersects union (a :: seen) rest last
    else combineLoop intersects union (a :: seen) rest last

/-- third_party/correct_boost_polygon.hpp 29-53, `result_combine`. -/
def combine (intersects : α → α → Bool) (union : α → α → List α) (result : List α) (new : α) : List α :=
  combineLoop intersects union [] result new

/-- third_party/correct_boost_polygon.hpp 55-59, `result_combine_multiple`. -/
def combineMultiple (intersects : α → α → Bool) (union : α → α → List α) (result new : List α) : List α :=
  new.foldl (combine intersects union) result

/-- third_party/correct_boost_polygon.hpp 388-392: 1 for a clockwise piece, -1 for the others. -/
def sign (area : ℚ) : ℤ := if 0 < area then 1 else -1

/-- third_party/correct_boost_polygon.hpp 396-405: the scores of the pieces, in decreasing order of area.  `before` are
the pieces met before, in reverse order, with their scores.  A score changes only before its turn comes in the outer
loop, so that the score added to a piece is the final one. -/
def scoresAfter (covers : α → α → Bool) : (before : List (α × ℤ)) → List (α × ℚ) → List (α × ℤ)
  | before, [] => before.reverse
  | before, x :: l =>
    scoresAfter covers
      ((x.1, sign x.2 + ((before.filter fun b => covers b.1 x.1).map Prod.snd).sum) :: before) l

/-- third_party/correct_boost_polygon.hpp 379-424, `fill_non_zero_winding`, for pieces that are sorted (`std::sort`, by
decreasing area) and turned clockwise (362-374): the pieces that are united, and the ones that are cut out. -/
def fill (covers : α → α → Bool) (pieces : List (α × ℚ)) : List α × List α :=
  let s := scoresAfter covers [] pieces
  ((s.filter fun e => e.2 ≠ 0).map Prod.fst, (s.filter fun e => e.2 = 0).map Prod.fst)

/-- third_party/correct_boost_polygon.hpp 466-508, `correct` of a polygon without holes (the hulls have none), with
`fill_non_zero_winding`: `input.resize(1)` leaves one element, so that the last step always runs; the difference with
no polygon at all is the filled polygon. -/
def correctPolygon (intersects : α → α → Bool) (union : α → α → List α) (covers : α → α → Bool)
    (difference : List α → List α → List α) (pieces : List (α × ℚ)) : List α :=
  let f := fill covers pieces
  difference (difference (combineMultiple intersects union [] f.1) (combineMultiple intersects union [] f.2)) []

/-- third_party/correct_boost_polygon.hpp 466-508 and 537-545, `correct` of a polygon with holes, with
`fill_non_zero_winding`: each hole is repaired as a polygon of its own (490-501), the holes are merged, and cut out
(503-507).  The pieces of the outline and of each hole are given. -/
def correctHoles (intersects : α → α → Bool) (union : α → α → List α) (covers : α → α → Bool)
    (difference : List α → List α → List α) (outline : List (α × ℚ)) (holes : List (List (α × ℚ))) : List α :=
  let f := fill covers outline
  difference (difference (combineMultiple intersects union [] f.1) (combineMultiple intersects union [] f.2))
    (holes.foldl (fun acc h =>
      combineMultiple intersects union acc (correctPolygon intersects union covers difference h)) [])

/-- third_party/correct_boost_polygon.hpp 517-530 and 565-576, `correct` of several polygons: each one is repaired and
merged with the result, which is empty at first. -/
def correctAll (intersects : α → α → Bool) (union : α → α → List α) (covers : α → α → Bool)
    (difference : List α → List α → List α) (input : List (List (α × ℚ) × List (List (α × ℚ)))) : List α :=
  input.foldl (fun acc q =>
    combineMultiple intersects union acc (correctHoles intersects union covers difference q.1 q.2)) []

/-- third_party/correct_boost_polygon.hpp 445-451, the body of the inner loop. -/
def oddStep (symDiff : α → α → α) (divide : ℕ) (l : List α) (i : ℕ) : List α :=
  match l[i + divide]?, l[i]? with
  | some b, some a => l.set i (symDiff b a)
  | _, _ => l

/-- third_party/correct_boost_polygon.hpp 441-454, one turn of the loop of `fill_odd_even`: the second half of the sets
is combined with the first one. -/
def oddPass (symDiff : α → α → α) (l : List α) : List α :=
  let divide := l.length / 2 + l.length % 2
  ((List.range (l.length / 2)).foldl (oddStep symDiff divide) l).take divide

/-- third_party/correct_boost_polygon.hpp 429-456, `fill_odd_even`, for pieces that are sorted (`std::sort`, by increasing
area) and turned clockwise (362-374). -/
def fillOddEven (symDiff : α → α → α) : ℕ → List α → Outcome (List α)
  | fuel, l =>
    if 1 < l.length then
      match fuel with
      | 0 => .outOfFuel
      | fuel + 1 => fillOddEven symDiff fuel (oddPass symDiff l)
    else .ok l

/-- third_party/correct_boost_polygon.hpp 503-507: the last step of `correct_odd_even`, when there is an outline. -/
def cutOddEven (symDiff : α → α → α) (empty : α) (filled : List α) (holes : α) : α :=
  match filled with
  | [] => empty
  | m :: _ => symDiff m holes

/-- third_party/correct_boost_polygon.hpp 490-501 with the functions of `correct_odd_even`: the holes, one after the
other. -/
def holesOddEven (symDiff : α → α → α) (empty : α) (fuel : ℕ) : List (List α) → α → Outcome α
  | [], acc => .ok acc
  | h :: holes, acc =>
    (fillOddEven symDiff fuel h).bind fun f =>
      holesOddEven symDiff empty fuel holes (symDiff acc (cutOddEven symDiff empty f empty))

/-- third_party/correct_boost_polygon.hpp 466-508 and 547-562, `correct_odd_even` of a polygon: the pieces of its outline
and of each of its holes are given. -/
def correctOddEven (symDiff : α → α → α) (empty : α) (fuel : ℕ) (outline : List α) (holes : List (List α)) : Outcome α :=
  (fillOddEven symDiff fuel outline).bind fun f =>
    (holesOddEven symDiff empty fuel holes empty).map fun h => cutOddEven symDiff empty f h

/-- third_party/correct_boost_polygon.hpp 517-530 and 578-598, `correct_odd_even` of several polygons. -/
def correctAllOddEven (symDiff : α → α → α) (empty : α) (fuel : ℕ) : List (List α × List (List α)) → α → Outcome α
  | [], acc => .ok acc
  | q :: input, acc =>
    (correctOddEven symDiff empty fuel q.1 q.2).bind fun m =>
      correctAllOddEven symDiff empty fuel input (symDiff acc m)

end Assemble

end RgbdSlam.PolygonRepair
