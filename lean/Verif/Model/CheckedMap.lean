import Verif.Model.System
/-
The operations of `Feature_Map` and `Local_Map` once more, with the assertions and the accesses by index
that `Model/FeatureMap.lean` and `Model/LocalMap.lean` leave out: a failed `assert` ends the program
(`terminate`), an index out of the flags (`Eigen::Vector::operator[]`) or the value of a member that was
never set is undefined behaviour.  The parts without assertion are those of the other two files.
-/
namespace RgbdSlam.Map.Checked

variable {P D Env : Type}

/-- `assert(c)`. -/
def assert {α : Type} (c : Prop) [Decidable c] (r : Outcome α) : Outcome α := if c then r else .terminate

/-- The writes `_isDetectedFeatureMatched[matchIndex] = true`, feature_map.hpp:666-667 and 695-696. -/
def setFlags (flags : List Bool) : List Nat → Outcome (List Bool)
  | [] => .ok flags
  | i :: is => if i < flags.length then setFlags (flags.set i true) is else .ub

/-- The two loops of the private `get_matches`, feature_map.hpp:652-669 (assertion 654) and 677-698
(assertion 679). -/
def matchPass (k : Kind P D Env) (env : Env) (det : List D) (toMatches advanced : Bool) :
    Store P → List Bool → Outcome (Store P × List Bool × List Match)
  | [], flags => .ok ([], flags, [])
  | (key, f) :: rest, flags =>
    assert (key = f.id) <|
      let f0 := { f with matched := [] }
      if k.isMoving f0.body || !k.isVisible env f0.body then
        (matchPass k env det toMatches advanced rest flags).bind fun (rest', flags', ms) =>
          .ok ((key, f0) :: rest', flags', ms)
      else
        let (idx, pushed) := k.findMatches env det f0 flags toMatches advanced
        (setFlags flags idx).bind fun flags1 =>
          (matchPass k env det toMatches advanced rest flags1).bind fun (rest', flags', ms) =>
            .ok ((key, { f0 with matched := idx }) :: rest', flags', pushed.map (⟨k.type, f.id, ·⟩) ++ ms)

/-- Private `get_matches`, feature_map.hpp:638-699. -/
def matchOnce (k : Kind P D Env) (env : Env) (det : List D) (advanced : Bool) (old : List Match)
    (m : FMap P) : Outcome (FMap P × List Match) :=
  if !m.active then .ok (m, old)
  else
    (matchPass k env det true advanced m.localMap (List.replicate det.length false)).bind
      fun (loc, flags1, ms1) =>
        (matchPass k env det (decide (ms1.length < k.minFeatures * 3)) advanced m.staged flags1).bind
          fun (stg, flags2, ms2) =>
            .ok ({ m with localMap := loc, staged := stg, flags := flags2 }, ms1 ++ ms2)

/-- Public `get_matches`, feature_map.hpp:308-326. -/
def getMatches (k : Kind P D Env) (env : Env) (det : List D) (m : FMap P) :
    Outcome (FMap P × List Match) :=
  (matchOnce k env det false [] m).bind fun (m1, ms1) =>
    if ms1.length < k.minFeatures then matchOnce k env det true ms1 m1 else .ok (m1, ms1)

/-- `mark_feature_with_id_as_unmatched`, feature_map.hpp:509-552 (assertions 525 and 540, writes of the
flags 529 and 545). -/
def markUnmatched (id det : Nat) (m : FMap P) : Outcome (FMap P × Bool) :=
  if !m.active then .ok (m, false)
  else if id = 0 then .ok (m, false)
  else
    match lookup id m.localMap with
    | some f =>
      assert (f.id = id) <|
        if f.matched.isEmpty then .ok (m, true)
        else if det < m.flags.length then
          .ok ({ m with flags := m.flags.set det false, localMap := eraseMatch id det m.localMap }, true)
        else .ub
    | none =>
      match lookup id m.staged with
      | some f =>
        assert (f.id = id) <|
          if f.matched.isEmpty then .ok (m, true)
          else if det < m.flags.length then
            .ok ({ m with flags := m.flags.set det false, staged := eraseMatch id det m.staged }, true)
          else .ub
      | none => .ok (m, false)

/-- `mark_outliers_as_unmatched`, feature_map.hpp:483-501. -/
def markOutliers (type : FType) : List Match → FMap P → Outcome (FMap P)
  | [], m => .ok m
  | o :: os, m =>
    if o.type = type then
      (markUnmatched o.idInMap o.detected m).bind fun (m', _) => markOutliers type os m'
    else markOutliers type os m

/-- `update_local_map`, feature_map.hpp:701-765 (assertions 717 and 722; the latter and `at` are in
`applyMatches`). -/
def updateLocal (k : Kind P D Env) (env : Env) (det : List D) :
    Store P → Outcome (Store P × List Nat × List (Feat P))
  | [] => .ok ([], [], [])
  | (key, f) :: rest =>
    assert (key = f.id) <|
      (applyMatches k env det false f.matched f).bind fun (f1, hit, used) =>
        let f2 := settle hit f1
        (updateLocal k env det rest).bind fun (kept, used', wr) =>
          if k.isLost f2 then
            .ok (kept, used ++ used', if k.isMoving f2.body then wr else f2 :: wr)
          else .ok ((key, f2) :: kept, used ++ used', wr)

/-- `update_staged_map`, feature_map.hpp:767-833 (assertions 781 and 811; `at` cannot throw after the
`emplace`). -/
def updateStaged (k : Kind P D Env) (env : Env) (det : List D) :
    Nat → Store P → Store P → Outcome (Store P × Store P × List Nat)
  | _, [], loc => .ok ([], loc, [])
  | 0, _ :: _, _ => .outOfFuel
  | n + 1, (key, f) :: rest, loc =>
    assert (key = f.id) <|
      (applyMatches k env det true f.matched f).bind fun (f1, hit, used) =>
        let f2 := settle hit f1
        if k.shouldAdd f2 then
          match k.promote f2 with
          | some body =>
            let loc1 := emplace f2.id (promoted f2 body) loc
            assert ((lookup f2.id loc1).map (·.id) = some f2.id) <|
              (updateStaged k env det n rest loc1).bind
                fun (stg, loc', used') => .ok (stg, loc', used ++ used')
          | none =>
            (updateStaged k env det n ((key, f2) :: rest) loc).bind
              fun (stg, loc', used') => .ok (stg, loc', used ++ used')
        else
          (updateStaged k env det n rest loc).bind fun (stg, loc', used') =>
            if k.shouldRemove f2 then .ok (stg, loc', used ++ used')
            else .ok ((key, f2) :: stg, loc', used ++ used')

/-- `update_map`, feature_map.hpp:367-385. -/
def updateMap (k : Kind P D Env) (fuel : Nat) (env : Env) (det : List D) (s : State P) :
    Outcome (State P × List Nat) :=
  if !s.map.active then .ok (s, [])
  else if !k.covValid env then .throws
  else
    (updateLocal k env det s.map.localMap).bind fun (loc, used1, wr) =>
      (updateStaged k env det fuel s.map.staged loc).bind fun (stg, loc', used2) =>
        .ok ({ s with map := { s.map with localMap := loc', staged := stg },
                      written := s.written ++ wr }, used1 ++ used2)

/-- `update_local_map_with_no_tracking`, feature_map.hpp:835-859 (assertion 843). -/
def missLocal (k : Kind P D Env) : Store P → Outcome (Store P × List (Feat P))
  | [] => .ok ([], [])
  | (key, f) :: rest =>
    assert (key = f.id) <|
      let f' := settle false f
      (missLocal k rest).bind fun (kept, wr) =>
        if k.isLost f' then .ok (kept, f' :: wr) else .ok ((key, f') :: kept, wr)

/-- `update_staged_map_with_no_tracking`, feature_map.hpp:861-881 (assertion 868). -/
def missStaged (k : Kind P D Env) : Store P → Outcome (Store P)
  | [] => .ok []
  | (key, f) :: rest =>
    assert (key = f.id) <|
      let f' := settle false f
      (missStaged k rest).bind fun kept => if k.shouldRemove f' then .ok kept else .ok ((key, f') :: kept)

/-- `update_with_no_tracking`, feature_map.hpp:391-399. -/
def updateNoTracking (k : Kind P D Env) (s : State P) : Outcome (State P) :=
  if !s.map.active then .ok s
  else
    (missLocal k s.map.localMap).bind fun (loc, wr) =>
      (missStaged k s.map.staged).bind fun stg =>
        .ok { s with map := { s.map with localMap := loc, staged := stg }, written := s.written ++ wr }

/-- `add_detected_feature_to_staged_map`, feature_map.hpp:407-428 (assertion 417). -/
def stageOne (k : Kind P D Env) (env : Env) (d : D) (s : State P) : Outcome (State P) :=
  if k.canAdd d then
    let a := s.alloc.next
    match k.build env d with
    | some body =>
      assert ((lookup a.last s.map.staged).isNone) <|
        .ok { s with alloc := a,
                     map := { s.map with
                       staged := emplace a.last ⟨a.last, 0, 0, [], body⟩ s.map.staged } }
    | none => .ok (if k.idOnThrow then { s with alloc := a } else s)
  else .ok s

/-- The loop of `add_features_to_staged_map`, feature_map.hpp:454-463. -/
def stageFrom (k : Kind P D Env) (env : Env) (used : List Nat) :
    Nat → List D → State P → Outcome (State P)
  | _, [], s => .ok s
  | i, d :: ds, s =>
    if used.contains i then stageFrom k env used (i + 1) ds s
    else (stageOne k env d s).bind (stageFrom k env used (i + 1) ds)

/-- `add_features_to_staged_map`, feature_map.hpp:437-464 (assertion 453). -/
def stage (k : Kind P D Env) (env : Env) (det : List D) (used : List Nat) (s : State P) :
    Outcome (State P) :=
  if !s.map.active then .ok s
  else if !k.covValid env then .throws
  else assert (det.length = s.map.flags.length) (stageFrom k env used 0 det s)

/-- `get_upgraded_map_features` (feature_map.hpp:883-913, assertion 892) and
`get_upgraded_staged_features` (915-946, assertion 924). -/
def takeUpgraded (k : Kind P D Env) (env : Env) : Store P → Outcome (Store P × List (Upgrade P))
  | [] => .ok ([], [])
  | (key, f) :: rest =>
    assert (key = f.id) <|
      (takeUpgraded k env rest).bind fun (kept, ups) =>
        match k.upgrade env f with
        | some u => .ok (kept, u :: ups)
        | none => .ok ((key, f) :: kept, ups)

/-- `get_upgraded_features`, feature_map.hpp:596-603. -/
def getUpgraded (k : Kind P D Env) (env : Env) (m : FMap P) : Outcome (FMap P × List (Upgrade P)) :=
  (takeUpgraded k env m.localMap).bind fun (loc, u1) =>
    (takeUpgraded k env m.staged).bind fun (stg, u2) =>
      .ok ({ m with localMap := loc, staged := stg }, u1 ++ u2)

/-- The assertion of `get_tracked_features`, feature_map.hpp:349, for all map features. -/
def tracked : Store P → Outcome Unit
  | [] => .ok ()
  | (key, f) :: rest => assert (key = f.id) (tracked rest)

/-! ### The local map -/

/-- The maps, with the member `_detectedFeatureId` (local_map.hpp:310), which has no value before the
first call of `find_feature_matches`. -/
structure CWorld (P : Type) where
  world : World P
  seen : Option Nat

/-- A new `Local_Map`, local_map.hpp:23-33. -/
def CWorld.init : CWorld P := ⟨World.init, none⟩

/-- `get_tracked_features`, local_map.hpp:46-71. -/
def trackedAll (w : World P) : List FType → Outcome Unit
  | [] => .ok ()
  | t :: ts => (tracked (w.maps t).localMap).bind fun _ => trackedAll w ts

/-- The loop of `find_feature_matches`, local_map.hpp:93-95. -/
def findAll (k : FType → Kind P D Env) (lt : Match → Match → Bool) (env : Env) (det : FType → List D) :
    List FType → World P → List Match → Outcome (World P × List Match)
  | [], w, ms => .ok (w, ms)
  | t :: ts, w, ms =>
    (getMatches (k t) env (det t) (w.maps t)).bind fun (m, found) =>
      findAll k lt env det ts (w.put t { w.view t with map := m }) (mergeBy lt ms found)

/-- `find_feature_matches`, local_map.hpp:78-100; `id` is the id of the detections. -/
def find (k : FType → Kind P D Env) (lt : Match → Match → Bool) (env : Env) (id : Nat)
    (det : FType → List D) (c : CWorld P) : Outcome (CWorld P × List Match) :=
  (findAll k lt env det order c.world []).map fun (w, ms) => (⟨w, some id⟩, ms)

/-- `mark_outliers_as_unmatched`, local_map.hpp:302-307. -/
def markAll (ms : List Match) : List FType → World P → Outcome (World P)
  | [], w => .ok w
  | t :: ts, w =>
    (markOutliers t ms (w.maps t)).bind fun m => markAll ms ts (w.put t { w.view t with map := m })

/-- The body of the first loop of `update`, local_map.hpp:128-137. -/
def updateOne (k : FType → Kind P D Env) (fuel : Nat) (env : Env) (det : FType → List D)
    (t : FType) (w : World P) : Outcome (World P × Bool) :=
  match updateMap (k t) fuel env (det t) (w.view t) with
  | .ok (s, used) =>
    match stage (k t) env (det t) used s with
    | .ok s' => .ok (w.put t s', false)
    | .throws => .ok (w.put t s, true)
    | .ub => .ub
    | .exit => .exit
    | .terminate => .terminate
    | .outOfFuel => .outOfFuel
  | .throws => .ok (w, true)
  | .ub => .ub
  | .exit => .exit
  | .terminate => .terminate
  | .outOfFuel => .outOfFuel

/-- The body of the second loop of `update`, local_map.hpp:140-155. -/
def upgradeOne (k : FType → Kind P D Env) (env : Env) (ts : List FType) (t : FType)
    (w : World P) : Outcome (World P × Bool) :=
  (getUpgraded (k t) env (w.maps t)).bind fun (m, us) =>
    eachMap (World.offer k us) ts (w.put t { w.view t with map := m })

/-- `assert(_detectedFeatureId == detectedFeatures.id)`, local_map.hpp:115 and 190. -/
def sameDetections {α : Type} (c : CWorld P) (id : Nat) (r : Outcome α) : Outcome α :=
  match c.seen with
  | none => .ub
  | some i => assert (i = id) r

/-- `update`, local_map.hpp:110-162. -/
def update (k : FType → Kind P D Env) (cov : Env → Bool) (fuel : Nat) (env : Env) (id : Nat)
    (det : FType → List D) (outliers : List Match) (c : CWorld P) : Outcome (CWorld P × Bool) :=
  sameDetections c id <|
    if !cov env then .ok (c, true)
    else
      ((markAll outliers order c.world).bind fun w =>
        (eachMap (updateOne k fuel env det) order w).bind fun (w1, threw) =>
          if threw then .ok (w1, true) else eachMap (upgradeOne k env order) order w1).map
        fun (w, threw) => ({ c with world := w }, threw)

/-- `update_no_pose`, local_map.hpp:167-173. -/
def noPose (k : FType → Kind P D Env) : List FType → World P → Outcome (World P)
  | [], w => .ok w
  | t :: ts, w => (updateNoTracking (k t) (w.view t)).bind fun s => noPose k ts (w.put t s)

/-- The loop of `add_all_features_to_map`, local_map.hpp:193-195. -/
def addOne (k : FType → Kind P D Env) (env : Env) (det : FType → List D) (t : FType)
    (w : World P) : Outcome (World P × Bool) :=
  match stage (k t) env (det t) [] (w.view t) with
  | .ok s => .ok (w.put t s, false)
  | .throws => .ok (w, true)
  | .ub => .ub
  | .exit => .exit
  | .terminate => .terminate
  | .outOfFuel => .outOfFuel

/-- `add_all_features_to_map`, local_map.hpp:181-199 (the covariance is tested before the assertion). -/
def addAll (k : FType → Kind P D Env) (cov : Env → Bool) (env : Env) (id : Nat) (det : FType → List D)
    (c : CWorld P) : Outcome (CWorld P × Bool) :=
  if !cov env then .ok (c, true)
  else
    sameDetections c id <|
      (eachMap (addOne k env det) order c.world).map fun (w, threw) => ({ c with world := w }, threw)

/-- The value beside an outcome; `dead` if there is none. -/
def pair {α β : Type} (r : Outcome (α × β)) (dead : β) : Outcome α × β :=
  (r.map (·.1), match r with
    | .ok (_, b) => b
    | _ => dead)

/-- The checked local map as used by `RGBD_SLAM::compute_new_pose`, src/rgbd_slam.cpp:163-259; the followed
features are asked for first (273).  Detections come with the id of their container
(`DetectedFeatureContainer`, src/matches_containers.hpp:46-65). -/
def checkedOps {Pose Det : Type} (k : FType → Kind P D Env) (cov : Env → Bool) (lt : Match → Match → Bool)
    (env : Pose → Det → Env) (dets : Det → FType → List D) :
    Slam.MapOps (Outcome (CWorld P)) (Nat × Det) Pose Match where
  find pose det L := pair (L.bind fun c =>
    (trackedAll c.world order).bind fun _ => find k lt (env pose det.2) det.1 (dets det.2) c) []
  update pose det outliers L := pair (L.bind fun c =>
    update k cov c.world.budget (env pose det.2) det.1 (dets det.2) outliers c) false
  updateNoPose L := L.bind fun c => (noPose k order c.world).map fun w => { c with world := w }
  addAll pose det L := (L.bind fun c =>
    addAll k cov (env pose det.2) det.1 (dets det.2) c).map (·.1)

/-- The same frame for the checked map, its detections in a container with id `n`. -/
def tag {Pose Det : Type} (n : Nat) (f : Slam.Frame (Outcome (World P)) Det Pose Match) :
    Slam.Frame (Outcome (CWorld P)) (Nat × Det) Pose Match where
  detect L p b := (n, f.detect (L.map (·.world)) p b)
  optimize := f.optimize

/-- `id(++idAllocator)`, src/matches_containers.hpp:54 and 64: the id of container number `n` (from 0) of
the program, on 64 bits. -/
def containerId (n : Nat) : Nat := (n + 1) % 2 ^ 64

/-- The frames of a tracker, frame `i` having its detections in container number `number i` of the program
(several trackers share the numbering). -/
def tagFrom {Pose Det : Type} (number : Nat → Nat) :
    Nat → List (Slam.Frame (Outcome (World P)) Det Pose Match) →
      List (Slam.Frame (Outcome (CWorld P)) (Nat × Det) Pose Match)
  | _, [] => []
  | i, f :: fs => tag (containerId (number i)) f :: tagFrom number (i + 1) fs

end RgbdSlam.Map.Checked
