import Verif.Model.MapPoints
/-
Model of `Local_Map` (src/map_management/local_map.hpp): the feature maps of all types, which share the
id allocator and the map writer, and the operations of the frame loop on them.

`Local_Map` is a variadic template; the program uses the maps of `order` (src/rgbd_slam.hpp:106).  All
feature contents have one type `P` and all detections one type `D` here (sums of the C++ types).  What is
sent to the map writer is kept per feature type; the interleaving of the types is not recorded.
-/
namespace RgbdSlam.Map

/-- `_featureMaps` in the order of `foreach_map`, src/rgbd_slam.hpp:105-107, local_map.hpp:312-330. -/
def order : List FType := [.point2d, .point, .plane]

/-- The maps, the id allocator (static) and what was written. -/
structure World (P : Type) where
  maps : FType → FMap P
  alloc : Alloc
  written : FType → List (Feat P)

/-- A new program. -/
def World.init {P : Type} : World P := ⟨fun _ => FMap.empty, Alloc.start, fun _ => []⟩

variable {P D Env : Type}

/-- One map with the shared parts. -/
def World.view (t : FType) (w : World P) : State P := ⟨w.maps t, w.alloc, w.written t⟩

/-- The same, written back. -/
def World.put (t : FType) (s : State P) (w : World P) : World P where
  maps u := if u = t then s.map else w.maps u
  alloc := s.alloc
  written u := if u = t then s.written else w.written u

/-- `std::list::merge` (feature_map.hpp:325) with the comparison of the elements (addresses of shared
pointers in the program: any order). -/
def mergeBy {α : Type} (lt : α → α → Bool) (a b : List α) : List α :=
  match a, b with
  | [], b => b
  | a, [] => a
  | x :: xs, y :: ys =>
    if lt y x then y :: mergeBy lt (x :: xs) ys else x :: mergeBy lt xs (y :: ys)
  termination_by a.length + b.length

/-- `foreach_map` (local_map.hpp:312-330) with a function that can throw: stops there.  The flag tells
that an exception left the loop. -/
def eachMap (f : FType → World P → Outcome (World P × Bool)) :
    List FType → World P → Outcome (World P × Bool)
  | [], w => .ok (w, false)
  | t :: ts, w => (f t w).bind fun (w', threw) => if threw then .ok (w', true) else eachMap f ts w'

/-- `find_feature_matches`, local_map.hpp:78-100. -/
def World.find (k : FType → Kind P D Env) (lt : Match → Match → Bool) (env : Env) (det : FType → List D) :
    List FType → World P → List Match → World P × List Match
  | [], w, ms => (w, ms)
  | t :: ts, w, ms =>
    let (m, found) := getMatches (k t) env (det t) (w.maps t)
    World.find k lt env det ts (w.put t { w.view t with map := m }) (mergeBy lt ms found)

/-- `mark_outliers_as_unmatched`, local_map.hpp:298-303. -/
def World.markOutliers (ms : List Match) : List FType → World P → World P
  | [], w => w
  | t :: ts, w =>
    World.markOutliers ms ts (w.put t { w.view t with map := Map.markOutliers t ms (w.maps t) })

/-- The body of the first loop of `update`, local_map.hpp:128-137: `update_map`, then
`add_features_to_staged_map` with the indexes used. -/
def World.updateOne (k : FType → Kind P D Env) (fuel : Nat) (env : Env) (det : FType → List D)
    (t : FType) (w : World P) : Outcome (World P × Bool) :=
  match updateMap (k t) fuel env (det t) (w.view t) with
  | .ok (s, used) =>
    match stage (k t) env (det t) used s with
    | .ok s' => .ok (w.put t s', false)
    | .throws => .ok (w.put t s, true)
    | .ub => .ub
    | .exit => .exit
    | .terminate => .terminate
    | .outOfFuel => .outOfFuel
  | .throws => .ok (w, true)
  | .ub => .ub
  | .exit => .exit
  | .terminate => .terminate
  | .outOfFuel => .outOfFuel

/-- The inner loop of the second loop of `update`, local_map.hpp:145-149. -/
def World.offer (k : FType → Kind P D Env) (us : List (Upgrade P)) (t : FType) (w : World P) :
    Outcome (World P × Bool) :=
  let (s, _, threw) := addUpgraded (k t) us (w.view t)
  .ok (w.put t s, threw)

/-- The body of the second loop of `update`, local_map.hpp:140-155 (the message for lost features is left
out). -/
def World.upgradeOne (k : FType → Kind P D Env) (env : Env) (ts : List FType) (t : FType)
    (w : World P) : Outcome (World P × Bool) :=
  let (m, us) := getUpgraded (k t) env (w.maps t)
  eachMap (World.offer k us) ts (w.put t { w.view t with map := m })

/-- The second loop of `update`, local_map.hpp:139-155. -/
def World.upgrade (k : FType → Kind P D Env) (env : Env) (w : World P) : Outcome (World P × Bool) :=
  eachMap (World.upgradeOne k env order) order w

/-- `update`, local_map.hpp:110-162.  `cov` is the test of the covariance of the given pose. -/
def World.update (k : FType → Kind P D Env) (cov : Env → Bool) (fuel : Nat) (env : Env)
    (det : FType → List D) (outliers : List Match) (w : World P) : Outcome (World P × Bool) :=
  if !cov env then .ok (w, true)
  else
    (eachMap (World.updateOne k fuel env det) order (w.markOutliers outliers order)).bind
      fun (w1, threw) =>
        if threw then .ok (w1, true) else World.upgrade k env w1

/-- `update_no_pose`, local_map.hpp:167-173. -/
def World.noPose (k : FType → Kind P D Env) : List FType → World P → World P
  | [], w => w
  | t :: ts, w => World.noPose k ts (w.put t (updateNoTracking (k t) (w.view t)))

/-- The loop of `add_all_features_to_map`, local_map.hpp:193-195. -/
def World.addOne (k : FType → Kind P D Env) (env : Env) (det : FType → List D) (t : FType)
    (w : World P) : Outcome (World P × Bool) :=
  match stageAll (k t) env (det t) (w.view t) with
  | .ok s => .ok (w.put t s, false)
  | .throws => .ok (w, true)
  | .ub => .ub
  | .exit => .exit
  | .terminate => .terminate
  | .outOfFuel => .outOfFuel

/-- `add_all_features_to_map`, local_map.hpp:181-199. -/
def World.addAll (k : FType → Kind P D Env) (cov : Env → Bool) (env : Env) (det : FType → List D)
    (w : World P) : Outcome (World P × Bool) :=
  if !cov env then .ok (w, true) else eachMap (World.addOne k env det) order w

/-- `reset`, local_map.hpp:204-209. -/
def World.reset : List FType → World P → World P
  | [], w => w
  | t :: ts, w => World.reset ts (w.put t { w.view t with map := Map.reset (w.maps t) })

/-- What the destructor sends to the map writer, local_map.hpp:35-40, for one type. -/
def World.destroyed (t : FType) (w : World P) : List (Feat P) := Map.destroyed (w.maps t)

/-- Calls of the public interface; `rehash` changes the iteration order of the containers of one map. -/
inductive WOp (D Env : Type) where
  | find (lt : Match → Match → Bool) (env : Env) (det : FType → List D)
  | update (fuel : Nat) (env : Env) (det : FType → List D) (outliers : List Match)
  | noPose
  | addAll (env : Env) (det : FType → List D)
  | reset
  | rehash (t : FType) (a b : Shuffle)

/-- One call; an exception leaves the state reached so far. -/
def World.step (k : FType → Kind P D Env) (cov : Env → Bool) (op : WOp D Env) (w : World P) :
    Outcome (World P) :=
  match op with
  | .find lt env det => .ok (w.find k lt env det order []).1
  | .update fuel env det outliers => (w.update k cov fuel env det outliers).map (·.1)
  | .noPose => .ok (w.noPose k order)
  | .addAll env det => (w.addAll k cov env det).map (·.1)
  | .reset => .ok (w.reset order)
  | .rehash t a b => (Map.step (k t) (.rehash a b) (w.view t)).map fun s => w.put t s

/-- A history of calls. -/
def World.run (k : FType → Kind P D Env) (cov : Env → Bool) : List (WOp D Env) → World P → Outcome (World P)
  | [], w => .ok w
  | op :: ops, w => (World.step k cov op w).bind (World.run k cov ops)

end RgbdSlam.Map
