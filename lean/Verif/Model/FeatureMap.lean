import Verif.Model.Outcome
/-
Model of `Feature_Map` (src/map_management/feature_map.hpp): the storage of map features of one type,
as candidates (staged) and as map features (local), and every operation on it.

* The feature classes (`MapPoint`, `MapPoint2D`, `MapPlane` and their staged/local versions) are the
  record `Kind`: the virtual functions of `IMapFeature`, `IStagedMapFeature` and `ILocalMapFeature`.
  `Model/MapKinds.lean` gives the three instances of the program.
* A `std::unordered_map<size_t, Feature>` is a list of (key, feature) pairs.  The C++ iteration order
  is unspecified: the operation `rehash` puts both lists in any other order, so statements about all
  histories cover every iteration order.
* `int _successivMatchedCount` and `size_t _failedTrackingCount` are unbounded here (C209 shows that they do
  not overflow in runs of at most 2147483647 updates).
* Logging, drawing and durations are left out.
-/
namespace RgbdSlam.Map

/-- `enum class FeatureType`, src/matches_containers.hpp:15-20. -/
inductive FType where
  | point2d | point | plane
  deriving DecidableEq, Repr

/-- `MapIdAllocator`, src/map_management/feature_map.hpp:24-37.  `last` is `_idAllocator` (64 bits,
starts at `invalidId` = 0); `given` is a ghost counter of the ids given so far. -/
structure Alloc where
  last : Nat
  given : Nat
  deriving DecidableEq, Repr

/-- The allocator at program start, feature_map.hpp:36. -/
def Alloc.start : Alloc := ⟨0, 0⟩

/-- `get_new_id`, feature_map.hpp:29-33: `std::max(_idAllocator + 1, 1uL)` on 64 bits. -/
def Alloc.next (a : Alloc) : Alloc := ⟨max ((a.last + 1) % 2 ^ 64) 1, a.given + 1⟩

/-- The members of `IMapFeature` (feature_map.hpp:168-171) and the rest of the feature (`body`). -/
structure Feat (P : Type) where
  id : Nat
  failed : Nat
  succ : Int
  matched : List Nat
  body : P
  deriving DecidableEq, Repr

/-- An element of the match container: type, `_idInMap`, `_detectedFeatureId`
(`IOptimizationFeature`, src/matches_containers.hpp:122-180). -/
structure Match where
  type : FType
  idInMap : Nat
  detected : Nat
  deriving DecidableEq, Repr

/-- `IUpgradedFeature`, src/matches_containers.hpp:80-110. -/
structure Upgrade (P : Type) where
  type : FType
  body : P
  matched : List Nat

/-- What `add_upgraded_to_local_map` does with a feature of its own type: logs and ignores
(map_point2d.hpp:174-185, map_primitive.hpp:164-174), or builds a local feature, whose constructor
may throw (map_point.hpp:178-191). -/
inductive Accept (P : Type) where
  | refuse
  | throws
  | add (body : P)

/-- The virtual functions of a feature type.  `Env` carries the camera transforms and pose covariance
and whatever else the answers depend on. -/
structure Kind (P D Env : Type) where
  /-- `get_feature_type` -/
  type : FType
  /-- `minimum_features_for_opti` -/
  minFeatures : Nat
  isMoving : P → Bool
  isVisible : Env → P → Bool
  /-- `find_matches` (feature_map.hpp:62-67): arguments detected features, feature, matched flags,
  `shouldAddToMatches`, `useAdvancedSearch`; result: returned index set, indexes pushed to `matches` -/
  findMatches : Env → List D → Feat P → List Bool → Bool → Bool → List Nat × List Nat
  /-- `update_with_match` (107-109), `noexcept` -/
  updateWith : Env → D → Feat P → Outcome (P × Bool)
  shouldRemove : Feat P → Bool
  shouldAdd : Feat P → Bool
  isLost : Feat P → Bool
  canAdd : D → Bool
  /-- constructor of the staged feature; `none` if it throws -/
  build : Env → D → Option P
  /-- is an id already taken when that constructor throws: no for points, whose base `tracking::Point`
  (or `PointInverseDepth`) is built before `IMapFeature` (map_point.hpp:53-55, map_point2d.hpp:53-55);
  yes for planes, which throw from the constructor body (map_primitive.cpp:262-284) -/
  idOnThrow : Bool
  /-- constructor of the local feature from a staged one; `none` if it throws -/
  promote : Feat P → Option P
  /-- `compute_upgraded` (74-75) -/
  upgrade : Env → Feat P → Option (Upgrade P)
  accept : Upgrade P → Accept P
  /-- is the position covariance of the pose valid (`utils::is_covariance_valid(poseCovariance)`) -/
  covValid : Env → Bool

/-- `std::unordered_map` content: (key, feature). -/
abbrev Store (P : Type) := List (Nat × Feat P)

/-- Members of `Feature_Map`, feature_map.hpp (activation flag, local map, staged map, match flags). -/
structure FMap (P : Type) where
  active : Bool
  localMap : Store P
  staged : Store P
  flags : List Bool
  deriving DecidableEq, Repr

/-- The map together with the id allocator (static, shared by all maps) and what was sent to the map
writer so far, in order. -/
structure State (P : Type) where
  map : FMap P
  alloc : Alloc
  written : List (Feat P)
  deriving DecidableEq, Repr

variable {P D Env : Type}

/-- Constructor, feature_map.hpp:242. -/
def FMap.empty : FMap P := ⟨true, [], [], []⟩

/-- `unordered_map::find`. -/
def lookup (key : Nat) (l : Store P) : Option (Feat P) :=
  match l with
  | [] => none
  | (k, f) :: rest => if k = key then some f else lookup key rest

/-- `unordered_map::emplace`: no effect when the key is present. -/
def emplace (key : Nat) (f : Feat P) (l : Store P) : Store P :=
  if (lookup key l).isSome then l else l ++ [(key, f)]

/-! ### Matching -/

/-- Sets the flags of the given indexes, feature_map.hpp:666-667 and 695-696 (indexes out of range,
which `find_matches` never returns, are ignored). -/
def setFlags (flags : List Bool) (idx : List Nat) : List Bool :=
  idx.foldl (fun fl i => fl.set i true) flags

/-- One of the two loops of the private `get_matches`, feature_map.hpp:652-669 (local map) and
677-698 (staged map). -/
def matchPass (k : Kind P D Env) (env : Env) (det : List D) (toMatches advanced : Bool) :
    Store P → List Bool → Store P × List Bool × List Match
  | [], flags => ([], flags, [])
  | (key, f) :: rest, flags =>
    let f0 := { f with matched := [] }
    if k.isMoving f0.body || !k.isVisible env f0.body then
      let (rest', flags', ms) := matchPass k env det toMatches advanced rest flags
      ((key, f0) :: rest', flags', ms)
    else
      let (idx, pushed) := k.findMatches env det f0 flags toMatches advanced
      let (rest', flags', ms) :=
        matchPass k env det toMatches advanced rest (setFlags flags idx)
      ((key, { f0 with matched := idx }) :: rest', flags', pushed.map (⟨k.type, f.id, ·⟩) ++ ms)

/-- Private `get_matches`, feature_map.hpp:638-699.  `old` is the previous content of `matches`. -/
def matchOnce (k : Kind P D Env) (env : Env) (det : List D) (advanced : Bool) (old : List Match)
    (m : FMap P) : FMap P × List Match :=
  if !m.active then (m, old)
  else
    let (loc, flags1, ms1) :=
      matchPass k env det true advanced m.localMap (List.replicate det.length false)
    let useStaged := decide (ms1.length < k.minFeatures * 3)
    let (stg, flags2, ms2) := matchPass k env det useStaged advanced m.staged flags1
    ({ m with localMap := loc, staged := stg, flags := flags2 }, ms1 ++ ms2)

/-- Public `get_matches`, feature_map.hpp:308-326, up to the final merge (`Model/LocalMap.lean`). -/
def getMatches (k : Kind P D Env) (env : Env) (det : List D) (m : FMap P) : FMap P × List Match :=
  let (m1, ms1) := matchOnce k env det false [] m
  if ms1.length < k.minFeatures then matchOnce k env det true ms1 m1 else (m1, ms1)

/-! ### Update with a pose -/

/-- The loop over `_matchIndexes`, feature_map.hpp:719-741 (local: only successful indexes are used)
and 783-798 (staged, `all` = true: every index is used).  Returns the feature, whether one update
succeeded, and the used indexes.  `det[i]?` is `detectedFeatureObject.at(i)` after the assert. -/
def applyMatches (k : Kind P D Env) (env : Env) (det : List D) (all : Bool) :
    List Nat → Feat P → Outcome (Feat P × Bool × List Nat)
  | [], f => .ok (f, false, [])
  | i :: is, f =>
    match det[i]? with
    | none => .ub
    | some d =>
      (k.updateWith env d f).noexcept.bind fun (body, good) =>
        (applyMatches k env det all is { f with body := body }).bind fun (f', good', used) =>
          .ok (f', good || good', if good || all then i :: used else used)

/-- `update_matched` (feature_map.hpp:112-117) or `update_unmatched` (122-129; `update_no_match` does
nothing in all three feature types). -/
def settle (success : Bool) (f : Feat P) : Feat P :=
  if success then { f with failed := 0, succ := f.succ + 1 }
  else { f with matched := [], failed := f.failed + 1, succ := f.succ - 1 }

/-- `update_local_map`, feature_map.hpp:701-765: remaining store, used indexes, features written. -/
def updateLocal (k : Kind P D Env) (env : Env) (det : List D) :
    Store P → Outcome (Store P × List Nat × List (Feat P))
  | [] => .ok ([], [], [])
  | (key, f) :: rest =>
    (applyMatches k env det false f.matched f).bind fun (f1, hit, used) =>
      let f2 := settle hit f1
      (updateLocal k env det rest).bind fun (kept, used', wr) =>
        if k.isLost f2 then
          .ok (kept, used ++ used', if k.isMoving f2.body then wr else f2 :: wr)
        else .ok ((key, f2) :: kept, used ++ used', wr)

/-- The local feature built from a staged one: `LocalMapPoint(staged)` map_point.cpp:280-288,
`LocalMapPoint2D` map_point2d.cpp:298-305, `LocalMapPlane` map_primitive.cpp:294-314 (same id, match
indexes and match count; the failure count starts at 0). -/
def promoted (f : Feat P) (body : P) : Feat P :=
  { id := f.id, failed := 0, succ := f.succ, matched := f.matched, body := body }

/-- `update_staged_map`, feature_map.hpp:767-833: first argument is the step budget, then the
candidates not yet visited and the local map.  Result: candidates kept, local map, used indexes.
When the promotion throws the iterator is not advanced (814-819): the same candidate is visited again. -/
def updateStaged (k : Kind P D Env) (env : Env) (det : List D) :
    Nat → Store P → Store P → Outcome (Store P × Store P × List Nat)
  | _, [], loc => .ok ([], loc, [])
  | 0, _ :: _, _ => .outOfFuel
  | n + 1, (key, f) :: rest, loc =>
    (applyMatches k env det true f.matched f).bind fun (f1, hit, used) =>
      let f2 := settle hit f1
      if k.shouldAdd f2 then
        match k.promote f2 with
        | some body =>
          (updateStaged k env det n rest (emplace f2.id (promoted f2 body) loc)).bind
            fun (stg, loc', used') => .ok (stg, loc', used ++ used')
        | none =>
          (updateStaged k env det n ((key, f2) :: rest) loc).bind
            fun (stg, loc', used') => .ok (stg, loc', used ++ used')
      else
        (updateStaged k env det n rest loc).bind fun (stg, loc', used') =>
          if k.shouldRemove f2 then .ok (stg, loc', used ++ used')
          else .ok ((key, f2) :: stg, loc', used ++ used')

/-- `update_map`, feature_map.hpp:367-385 (the map writer is never null in `Local_Map`). -/
def updateMap (k : Kind P D Env) (fuel : Nat) (env : Env) (det : List D) (s : State P) :
    Outcome (State P × List Nat) :=
  if !s.map.active then .ok (s, [])
  else if !k.covValid env then .throws
  else
    (updateLocal k env det s.map.localMap).bind fun (loc, used1, wr) =>
      (updateStaged k env det fuel s.map.staged loc).bind fun (stg, loc', used2) =>
        .ok ({ s with map := { s.map with localMap := loc', staged := stg },
                      written := s.written ++ wr }, used1 ++ used2)

/-! ### Update without a pose -/

/-- `update_local_map_with_no_tracking`, feature_map.hpp:835-859 (moving features are written too). -/
def missLocal (k : Kind P D Env) : Store P → Store P × List (Feat P)
  | [] => ([], [])
  | (key, f) :: rest =>
    let f' := settle false f
    let (kept, wr) := missLocal k rest
    if k.isLost f' then (kept, f' :: wr) else ((key, f') :: kept, wr)

/-- `update_staged_map_with_no_tracking`, feature_map.hpp:861-881. -/
def missStaged (k : Kind P D Env) : Store P → Store P
  | [] => []
  | (key, f) :: rest =>
    let f' := settle false f
    if k.shouldRemove f' then missStaged k rest else (key, f') :: missStaged k rest

/-- `update_with_no_tracking`, feature_map.hpp:391-399. -/
def updateNoTracking (k : Kind P D Env) (s : State P) : State P :=
  if !s.map.active then s
  else
    let (loc, wr) := missLocal k s.map.localMap
    { s with map := { s.map with localMap := loc, staged := missStaged k s.map.staged },
             written := s.written ++ wr }

/-! ### New candidates -/

/-- `add_detected_feature_to_staged_map`, feature_map.hpp:407-428. -/
def stageOne (k : Kind P D Env) (env : Env) (d : D) (s : State P) : State P :=
  if k.canAdd d then
    let a := s.alloc.next
    match k.build env d with
    | some body =>
      { s with alloc := a,
               map := { s.map with staged := emplace a.last ⟨a.last, 0, 0, [], body⟩ s.map.staged } }
    | none => if k.idOnThrow then { s with alloc := a } else s
  else s

/-- The loop of `add_features_to_staged_map`, feature_map.hpp:454-463, from index `i` on. -/
def stageFrom (k : Kind P D Env) (env : Env) (used : List Nat) : Nat → List D → State P → State P
  | _, [], s => s
  | i, d :: ds, s =>
    if used.contains i then stageFrom k env used (i + 1) ds s
    else stageFrom k env used (i + 1) ds (stageOne k env d s)

/-- `add_features_to_staged_map`, feature_map.hpp:437-464. -/
def stage (k : Kind P D Env) (env : Env) (det : List D) (used : List Nat) (s : State P) :
    Outcome (State P) :=
  if !s.map.active then .ok s
  else if !k.covValid env then .throws
  else if det.length ≠ s.map.flags.length then .terminate
  else .ok (stageFrom k env used 0 det s)

/-- `add_all_features_to_staged_map`, feature_map.hpp:472-478. -/
def stageAll (k : Kind P D Env) (env : Env) (det : List D) (s : State P) : Outcome (State P) :=
  stage k env det [] s

/-! ### Outliers -/

/-- `mark_unmatched(id)` on the feature stored under `key` (feature_map.hpp:91). -/
def eraseMatch (key det : Nat) (l : Store P) : Store P :=
  l.map fun (k, f) =>
    if k = key then (k, { f with matched := f.matched.filter (· ≠ det) }) else (k, f)

/-- `mark_feature_with_id_as_unmatched`, feature_map.hpp:509-552. -/
def markUnmatched (id det : Nat) (m : FMap P) : FMap P × Bool :=
  if !m.active then (m, false)
  else if id = 0 then (m, false)
  else
    match lookup id m.localMap with
    | some f =>
      if f.matched.isEmpty then (m, true)
      else ({ m with flags := m.flags.set det false, localMap := eraseMatch id det m.localMap }, true)
    | none =>
      match lookup id m.staged with
      | some f =>
        if f.matched.isEmpty then (m, true)
        else ({ m with flags := m.flags.set det false, staged := eraseMatch id det m.staged }, true)
      | none => (m, false)

/-- `mark_outliers_as_unmatched`, feature_map.hpp:483-501. -/
def markOutliers (type : FType) : List Match → FMap P → FMap P
  | [], m => m
  | o :: os, m =>
    if o.type = type then markOutliers type os (markUnmatched o.idInMap o.detected m).1
    else markOutliers type os m

/-! ### Upgrades -/

/-- `get_upgraded_map_features` (feature_map.hpp:883-913) and `get_upgraded_staged_features`
(915-946). -/
def takeUpgraded (k : Kind P D Env) (env : Env) : Store P → Store P × List (Upgrade P)
  | [] => ([], [])
  | (key, f) :: rest =>
    let (kept, ups) := takeUpgraded k env rest
    match k.upgrade env f with
    | some u => (kept, u :: ups)
    | none => ((key, f) :: kept, ups)

/-- `get_upgraded_features`, feature_map.hpp:596-603. -/
def getUpgraded (k : Kind P D Env) (env : Env) (m : FMap P) : FMap P × List (Upgrade P) :=
  let (loc, u1) := takeUpgraded k env m.localMap
  let (stg, u2) := takeUpgraded k env m.staged
  ({ m with localMap := loc, staged := stg }, u1 ++ u2)

/-- `add_upgraded_features`, feature_map.hpp:609-622, with `add_to_local_map` (948-959) and the
constructor of upgraded points (map_point.cpp:290-301: new id, one match, not failed; no id is taken
if it throws).  Returns the
state left behind, the count, and whether a constructor threw (which stops the loop). -/
def addUpgraded (k : Kind P D Env) : List (Upgrade P) → State P → State P × Nat × Bool
  | [], s => (s, 0, false)
  | u :: us, s =>
    if u.type = k.type then
      match k.accept u with
      | .refuse =>
        let (s', n, t) := addUpgraded k us s
        (s', n + 1, t)
      | .throws => (s, 0, true)
      | .add body =>
        let a := s.alloc.next
        let (s', n, t) := addUpgraded k us
          { s with alloc := a,
                   map := { s.map with
                     localMap := emplace a.last ⟨a.last, 0, 1, u.matched, body⟩ s.map.localMap } }
        (s', n + 1, t)
    else addUpgraded k us s

/-! ### Life cycle -/

/-- `reset`, feature_map.hpp:276-283. -/
def reset (m : FMap P) : FMap P :=
  if !m.active then m else { m with localMap := [], staged := [] }

/-- `deactivate`, feature_map.hpp:587. -/
def deactivate (m : FMap P) : FMap P := { m with active := false }

/-- `destroy`, feature_map.hpp:288-298: the features sent to the map writer. -/
def destroyed (m : FMap P) : List (Feat P) := if !m.active then [] else m.localMap.map (·.2)

/-- A change of iteration order of an `unordered_map`. -/
structure Shuffle where
  app : ∀ {α : Type}, List α → List α
  perm : ∀ {α : Type} (l : List α), (app l).Perm l

/-- Calls of the public interface of `Feature_Map`; `foreignIds n` stands for `n` ids taken by other
maps, `rehash` for a change of iteration order. -/
inductive Op (P D Env : Type) where
  | find (env : Env) (det : List D)
  | update (fuel : Nat) (env : Env) (det : List D)
  | noTracking
  | stage (env : Env) (det : List D) (used : List Nat)
  | outliers (ms : List Match)
  | takeUpgrades (env : Env)
  | addUpgrades (us : List (Upgrade P))
  | reset
  | deactivate
  | foreignIds (n : Nat)
  | rehash (a b : Shuffle)

/-- `n` calls of `get_new_id`. -/
def Alloc.skip : Nat → Alloc → Alloc
  | 0, a => a
  | n + 1, a => Alloc.skip n a.next

/-- One call.  An exception leaves the state as it is (`updateMap` and `stage` throw before any
change; an exception of `addUpgraded` leaves what was done so far). -/
def step (k : Kind P D Env) (op : Op P D Env) (s : State P) : Outcome (State P) :=
  match op with
  | .find env det => .ok { s with map := (getMatches k env det s.map).1 }
  | .update fuel env det =>
    match updateMap k fuel env det s with
    | .throws => .ok s
    | r => r.map (·.1)
  | .noTracking => .ok (updateNoTracking k s)
  | .stage env det used =>
    match stage k env det used s with
    | .throws => .ok s
    | r => r
  | .outliers ms => .ok { s with map := markOutliers k.type ms s.map }
  | .takeUpgrades env => .ok { s with map := (getUpgraded k env s.map).1 }
  | .addUpgrades us => .ok (addUpgraded k us s).1
  | .reset => .ok { s with map := reset s.map }
  | .deactivate => .ok { s with map := deactivate s.map }
  | .foreignIds n => .ok { s with alloc := s.alloc.skip n }
  | .rehash a b =>
    .ok { s with map := { s.map with localMap := a.app s.map.localMap,
                                     staged := b.app s.map.staged } }

/-- A history of calls. -/
def run (k : Kind P D Env) : List (Op P D Env) → State P → Outcome (State P)
  | [], s => .ok s
  | op :: ops, s => (step k op s).bind (run k ops)

/-- A new map; `a` is the allocator at that time. -/
def State.init (a : Alloc) : State P := ⟨FMap.empty, a, []⟩

end RgbdSlam.Map
