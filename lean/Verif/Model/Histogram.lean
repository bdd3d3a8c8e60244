import Verif.Model.Outcome

/-
Model of the normal direction histogram of the primitive detection.
-/
namespace RgbdSlam.Histogram

open RgbdSlam

/-- `depthMapPatchSize_px` (src/parameters.hpp 79-80), used as the side of the histogram
(src/features/primitives/primitive_detection.hpp 199). -/
def size : Nat := 20

/-- src/features/primitives/histogram.hpp 124-128: `_histogram` and `_bins`.  `_pointCount` is always the
length of `_bins` once the histogram is initialised, and is not kept apart. -/
structure Hist where
  counts : List Nat
  bins : List Int
  deriving DecidableEq, Repr

/-- src/features/primitives/histogram.hpp 118-122 (`reset`). -/
def reset : Hist := { counts := List.replicate (size * size) 0, bins := [] }

/-- src/features/primitives/histogram.hpp 48-54: the bin of a direction.  `u` is the first angle divided
by π and `v` the second angle plus π divided by 2π: both are fractions of the interval of the angle.
Simplification: exact rationals instead of `double`. -/
def bin (u v : Rat) : Int :=
  let xQ := (((size : Rat) - 1) * u).floor
  let yQ := if xQ > 0 then (((size : Rat) - 1) * v).floor else 0
  yQ * size + xQ

/-- src/features/primitives/histogram.hpp 44-61: the loop of `init_histogram`; a point that is not in the
mask is `none`.  The assertion `bin < _histogram.size()` is kept; a negative bin fails it too, as `bin`
is unsigned. -/
def initLoop : List (Option (Rat × Rat)) → Hist → Outcome Hist
  | [], h => .ok h
  | none :: ps, h => initLoop ps { h with bins := h.bins ++ [-1] }
  | some (u, v) :: ps, h =>
    let b := bin u v
    if b < 0 ∨ (h.counts.length : Int) ≤ b then .terminate
    else initLoop ps
      { counts := h.counts.set b.toNat (h.counts.getD b.toNat 0 + 1), bins := h.bins ++ [b] }

/-- src/features/primitives/histogram.hpp 35-62 (`init_histogram`), called on a histogram whose counters
were reset (primitive_detection.cpp 170). -/
def init (points : List (Option (Rat × Rat))) : Outcome Hist := initLoop points reset

/-- src/features/primitives/histogram.hpp 71-82: scan of the counters from bin `i` on; `best` is
(`mostFrequentBin`, `maxOccurencesCount`). -/
def scan : List Nat → Nat → Int × Nat → Int × Nat
  | [], _, best => best
  | c :: cs, i, best => scan cs (i + 1) (if c > best.2 then ((i : Int), c) else best)

/-- src/features/primitives/histogram.hpp 69-98 (`get_points_from_most_frequent_bin`). -/
def candidates (h : Hist) : List Nat :=
  let best := scan h.counts 0 (-1, 0)
  if best.1 ≥ 0 then (List.range h.bins.length).filter (fun i => h.bins.getD i (-1) == best.1) else []

/-- src/features/primitives/histogram.hpp 103-113 (`remove_point`).  An index outside of the counters is
undefined behaviour. -/
def removePoint (h : Hist) (id : Nat) : Outcome Hist :=
  if h.bins.length ≤ id then .exit
  else
    let b := h.bins.getD id (-1)
    if b < 0 ∨ (h.counts.length : Int) ≤ b then .ub
    else
      let c := h.counts.getD b.toNat 0
      .ok { counts := if c ≠ 0 then h.counts.set b.toNat (c - 1) else h.counts,
            bins := h.bins.set id 1 }

/-- A sequence of calls of `remove_point`. -/
def removeAll : List Nat → Hist → Outcome Hist
  | [], h => .ok h
  | i :: is, h => (removePoint h i).bind (removeAll is)

end RgbdSlam.Histogram
