import Verif.Model.LocalMap
import Verif.Model.Ransac
import Verif.Model.Slam
/-
The map features followed by optical flow in the next image: `get_tracked_features` of the local map and of
the feature maps, `add_to_tracked` of the feature types.

`Px` is the type of pixel positions.  Projection and visibility are parameters; the casts of the positions to
floats are left out.
-/
namespace RgbdSlam.Map

variable {P Px : Type}

/-- The numbers in [0, 1) given by `Random::get_random_double` (src/utils/random.hpp 20-34) to one thread, in
the order of the calls.  The generator is `thread_local` and built from the constant `_seed`: every new
thread gets the same numbers. -/
abbrev Draws := Nat → Rat

/-- src/map_management/map_features/map_point.cpp 116-136, `MapPoint::add_to_tracked` (noexcept), when `n`
numbers were drawn before: what is added, and how many numbers are drawn after. -/
def addToTracked (project : P → Option Px) (dropChance : Nat) (draws : Draws) (n : Nat) (f : Feat P) :
    Outcome (List (Nat × Px) × Nat) :=
  let shouldNotDrop : Outcome (Bool × Nat) :=
    if dropChance = 0 then .ok (true, n)
    else (Ransac.randomUint (draws n) 0 dropChance).map fun r => (decide (r ≠ 0), n + 1)
  (shouldNotDrop.map fun (keep, n') =>
    if keep then
      match project f.body with
      | some px => ([(f.id, px)], n')
      | none => ([], n')
    else ([], n')).noexcept

/-- The loop of `Feature_Map::get_tracked_features`, src/map_management/feature_map.hpp 347-355, for 3D
points. -/
def trackStore (visible : P → Bool) (project : P → Option Px) (dropChance : Nat) (draws : Draws) :
    Nat → Store P → Outcome (List (Nat × Px) × Nat)
  | n, [] => .ok ([], n)
  | n, (_, f) :: rest =>
    if !f.matched.isEmpty && visible f.body then
      (addToTracked project dropChance draws n f).bind fun (added, n') =>
        (trackStore visible project dropChance draws n' rest).bind fun (more, n'') =>
          .ok (added ++ more, n'')
    else trackStore visible project dropChance draws n rest

/-- `Feature_Map::get_tracked_features`, feature_map.hpp 334-358 (noexcept), by feature type.
`MapPoint2D::add_to_tracked` adds nothing and draws nothing (map_point2d.cpp 143-152); the plane map has no
container (map_primitive.hpp 152-158). -/
def trackMap (visible : P → Bool) (project : P → Option Px) (dropChance : Nat) (draws : Draws) (n : Nat)
    (t : FType) (m : FMap P) : Outcome (List (Nat × Px) × Nat) :=
  if !m.active then .ok ([], n)
  else match t with
    | .point => (trackStore visible project dropChance draws n m.localMap).noexcept
    | .point2d => .ok ([], n)
    | .plane => .ok ([], n)

/-- The `foreach_map` of `Local_Map::get_tracked_features`, src/map_management/local_map.hpp 65-68. -/
def trackMaps (visible : P → Bool) (project : P → Option Px) (dropChance : Nat) (draws : Draws)
    (w : World P) : Nat → List FType → Outcome (List (Nat × Px))
  | _, [] => .ok []
  | n, t :: ts =>
    (trackMap visible project dropChance draws n t (w.maps t)).bind fun (added, n') =>
      (trackMaps visible project dropChance draws w n' ts).map (added ++ ·)

/-- `Local_Map::get_tracked_features`, local_map.hpp 46-71 (noexcept), called with the predicted pose in a
thread of its own (`std::async`, src/rgbd_slam.cpp 269-281), so with the numbers of a new thread. -/
def World.trackedFeatures (visible : P → Bool) (project : P → Option Px) (draws : Draws) (w : World P) :
    Outcome (List (Nat × Px)) :=
  let numberOfFeatures := (order.map fun t => (w.maps t).localMap.length).foldl (· + ·) 0
  if numberOfFeatures = 0 then .ok []
  else (trackMaps visible project (Slam.keypointRefreshFrequency * 2) draws w 0 order).noexcept

end RgbdSlam.Map
