import Verif.Model.Outcome
/-
Random subsets (src/pose_optimization/ransac.hpp, src/utils/random.hpp) and the consensus search of
src/pose_optimization/pose_optimization.cpp.  Scores are exact rationals.  The scores of the program are
1/5 and 1/3, and a sum of them equals 1 only for five of the first or three of the second kind, where
the sum in doubles is exactly 1 too: comparing sums with 1 gives the same answer in doubles.
Time measurements and log messages are not modelled.
-/
namespace RgbdSlam.Ransac

/-- `Random::get_random_uint(min, max)`, random.hpp:51-55, for the generator output `r` in [0,1).  The
assertion fails when the interval is empty. -/
def randomUint (r : Rat) (lo hi : Nat) : Outcome Nat :=
  if lo < hi then .ok (lo + (r * ((hi : Rat) - lo)).floor.toNat) else .terminate

section Subsets
variable {M : Type}

/-- `get_random_subset`, ransac.hpp:19-40.  `shuffled` is the shuffled copy of the container; elements
are inserted at the front. -/
def subset (shuffled : List M) (n : Nat) : Outcome (List M) :=
  if shuffled.length < n then .throws else .ok (shuffled.take n).reverse

/-- The loop of `get_random_subset_with_duplicates`, ransac.hpp:61-66, with one generator output per
turn; `none`: the list of outputs given to the model is too short. -/
def drawLoop (l : List M) (n : Nat) : List Rat → List M → Outcome (List M)
  | draws, out =>
    if out.length < n then
      match draws with
      | [] => .outOfFuel
      | r :: rs =>
        (randomUint r 0 l.length).bind fun i =>
          match l[i]? with
          | some a => drawLoop l n rs (a :: out)
          | none => .ub
    else .ok out

/-- `get_random_subset_with_duplicates`, ransac.hpp:48-68. -/
def subsetDup (l : List M) (n : Nat) (draws : List Rat) : Outcome (List M) :=
  if l.length < n then .throws else drawLoop l n draws []

/-- The loop of `get_random_subset_with_score`, ransac.hpp:90-100. -/
def pickLoop (score : M → Rat) (target : Rat) : List M → Rat → List M → Outcome (List M)
  | [], _, _ => .throws
  | a :: rest, acc, out =>
    if target ≤ acc + score a then .ok (a :: out) else pickLoop score target rest (acc + score a) (a :: out)

/-- `get_random_subset_with_score`, ransac.hpp:77-103. -/
def subsetScore (score : M → Rat) (target : Rat) (shuffled : List M) : Outcome (List M) :=
  pickLoop score target shuffled 0 []

/-- `get_random_subset_with_score_with_duplicates`, ransac.hpp:111-131 (its loop; `fuel` is
`maxIterations`, 512 by default). -/
def pickDup (score : M → Rat) (target : Rat) (l : List M) : Nat → List Rat → Rat → List M →
    Outcome (List M)
  | 0, _, _, out => .ok out
  | fuel + 1, draws, acc, out =>
    if acc < target then
      match draws with
      | [] => .outOfFuel
      | r :: rs =>
        (randomUint r 0 l.length).bind fun i =>
          match l[i]? with
          | some a => pickDup score target l fuel rs (acc + score a) (a :: out)
          | none => .ub
    else .ok out

end Subsets

/-- What the consensus search depends on: the score and part count of a match (`get_score`,
`get_feature_part_count`), whether it is an inlier of a pose (`is_inlier`, noexcept), and the
Levenberg-Marquardt optimisation (pose_optimization.cpp:302-311 and 332-358: coefficients of the pose,
minimisation, result without NaN), arbitrary here. -/
structure Problem (M Pose : Type) where
  score : M → Rat
  parts : M → Nat
  inlier : Pose → M → Bool
  minimise : Pose → List M → Option Pose

variable {M Pose : Type}

/-- `get_feature_set_optimization_score`, pose_optimization.cpp:77-85. -/
def setScore (p : Problem M Pose) (l : List M) : Rat := l.foldl (fun acc m => acc + p.score m) 0

/-- `match_sets` and the score. -/
structure Split (M : Type) where
  inliers : List M
  outliers : List M
  score : Rat
  deriving DecidableEq

/-- `get_features_inliers_outliers`, pose_optimization.cpp:33-72. -/
def split (p : Problem M Pose) (pose : Pose) (l : List M) : Split M :=
  l.foldl (fun s m =>
    if p.inlier pose m then ⟨s.inliers ++ [m], s.outliers, s.score + p.score m⟩
    else ⟨s.inliers, s.outliers ++ [m], s.score⟩) ⟨[], [], 0⟩

/-- `get_random_subset`, pose_optimization.cpp:90-105. -/
def randomSubset (p : Problem M Pose) (shuffled : List M) : Outcome (List M) :=
  (subsetScore p.score 1 shuffled).bind fun s =>
    if setScore p s < 1 then .throws else .ok s

/-- `compute_optimized_global_pose`, pose_optimization.cpp:302-359.  The coefficients are a column
vector, so `input.cols()` is 1. -/
def globalPose (p : Problem M Pose) (start : Pose) (l : List M) : Option Pose :=
  if (l.map p.parts).sum ≤ 1 then none
  else if setScore p l < 1 then none
  else p.minimise start l

/-- A candidate: pose and split of the matches. -/
structure Cand (M Pose : Type) where
  pose : Pose
  sets : Split M
  deriving DecidableEq

/-- The part of an iteration that only uses local variables, pose_optimization.cpp:167-200: `none` when
the iteration is abandoned. -/
def evaluate (p : Problem M Pose) (current : Pose) (l shuffled : List M) :
    Outcome (Option (Cand M Pose)) :=
  (randomSubset p shuffled).bind fun s =>
    match globalPose p current s with
    | none => .ok none
    | some q =>
      let sp := split p q l
      if sp.score < 1 then .ok none else .ok (some ⟨q, sp⟩)

/-- The variables shared by the iterations, pose_optimization.cpp:144-149 (`mut` is below). -/
structure Shared (M Pose : Type) where
  maxScore : Rat
  bestPose : Pose
  inliers : List M
  outliers : List M
  canQuit : Bool
  deriving DecidableEq

/-- Their initial values. -/
def Shared.init (current : Pose) : Shared M Pose := ⟨1, current, [], [], false⟩

/-- `canOverload`, pose_optimization.cpp:203-205; `double_equal(a, b, 0.1)` is `|a - b| <= 0.1`. -/
def canOverload (score maxScore : Rat) (size newSize : Nat) : Bool :=
  decide (maxScore < score) ||
    (decide (score - maxScore ≤ 1 / 10 ∧ maxScore - score ≤ 1 / 10) && decide (size < newSize))

/-- `minIterations`, pose_optimization.cpp:217. -/
def minIterations : Nat := 3

/-! ### Build with `MAKE_DETERMINISTIC`: a sequential loop -/

/-- One turn of the sequential loop, pose_optimization.cpp:160-223; `stop` is `inliersToStop`. -/
def seqTurn (stop iteration : Nat) (c : Option (Cand M Pose)) (s : Shared M Pose) : Shared M Pose :=
  match c with
  | none => s
  | some c =>
    let s' := if canOverload c.sets.score s.maxScore s.inliers.length c.sets.inliers.length then
      { s with maxScore := c.sets.score, bestPose := c.pose, inliers := c.sets.inliers,
               outliers := c.sets.outliers }
      else s
    if minIterations ≤ iteration ∧ stop < s'.inliers.length then { s' with canQuit := true } else s'

/-- The sequential loop, from iteration `i` on; `shuffles` are the shuffled copies of the matches, one
per iteration. -/
def seqLoop (p : Problem M Pose) (current : Pose) (l : List M) (stop : Nat) :
    Nat → List (List M) → Shared M Pose → Outcome (Shared M Pose)
  | _, [], s => .ok s
  | i, sh :: shs, s =>
    if s.canQuit then .ok s
    else (evaluate p current l sh).bind fun c => seqLoop p current l stop (i + 1) shs (seqTurn stop i c s)

/-! ### Default build: parallel iterations -/

/-- Where an iteration is.  Each step reads or writes one shared variable. -/
inductive Pc (M Pose : Type) where
  /-- line 160: about to read `canQuit` -/
  | start
  /-- line 203: about to read `maxScore` for the first comparison -/
  | greater (c : Cand M Pose)
  /-- line 204: about to read `maxScore` for `double_equal` -/
  | close (c : Cand M Pose)
  /-- line 205: about to read the size of the inlier set -/
  | larger (c : Cand M Pose)
  /-- line 208: about to lock `mut` -/
  | lock (c : Cand M Pose)
  /-- lines 209, 210, 212 (twice: inliers and outliers): about to write -/
  | writeScore (c : Cand M Pose)
  | writePose (c : Cand M Pose)
  | writeInliers (c : Cand M Pose)
  | writeOutliers (c : Cand M Pose)
  /-- line 213: about to unlock -/
  | unlock (c : Cand M Pose)
  /-- line 218: about to read the size of the inlier set -/
  | stopTest
  /-- line 220: about to write `canQuit` -/
  | setQuit
  | done
  deriving DecidableEq

/-- State of the parallel loop: shared variables, holder of `mut`, iterations. -/
structure Par (M Pose : Type) where
  sh : Shared M Pose
  holder : Option Nat
  pcs : List (Pc M Pose)
  /-- an exception left an iteration, hence the noexcept function -/
  terminated : Bool
  deriving DecidableEq

/-- All iterations at their beginning (`tbb::parallel_for(0, n)`). -/
def Par.init (current : Pose) (n : Nat) : Par M Pose :=
  ⟨.init current, none, List.replicate n .start, false⟩

/-- One step of iteration `i`, pose_optimization.cpp:159-221; `shuffled` is used by the step that draws
the subset.  `none`: no step is possible (finished or waiting for the lock). -/
def Par.step (p : Problem M Pose) (current : Pose) (l : List M) (stop : Nat) (shuffled : List M) (i : Nat)
    (s : Par M Pose) : Option (Par M Pose) :=
  let goto (pc : Pc M Pose) (sh : Shared M Pose) : Option (Par M Pose) :=
    some { s with sh := sh, pcs := s.pcs.set i pc }
  match s.pcs[i]? with
  | none => none
  | some .start =>
    if s.sh.canQuit then goto .done s.sh
    else match evaluate p current l shuffled with
      | .ok none => goto .done s.sh
      | .ok (some c) => goto (.greater c) s.sh
      | _ => some { s with terminated := true }
  | some (.greater c) =>
    if s.sh.maxScore < c.sets.score then goto (.lock c) s.sh else goto (.close c) s.sh
  | some (.close c) =>
    if c.sets.score - s.sh.maxScore ≤ 1 / 10 ∧ s.sh.maxScore - c.sets.score ≤ 1 / 10 then
      goto (.larger c) s.sh
    else goto .stopTest s.sh
  | some (.larger c) =>
    if s.sh.inliers.length < c.sets.inliers.length then goto (.lock c) s.sh else goto .stopTest s.sh
  | some (.lock c) =>
    if s.holder.isSome then none
    else some { s with holder := some i, pcs := s.pcs.set i (.writeScore c) }
  | some (.writeScore c) => goto (.writePose c) { s.sh with maxScore := c.sets.score }
  | some (.writePose c) => goto (.writeInliers c) { s.sh with bestPose := c.pose }
  | some (.writeInliers c) => goto (.writeOutliers c) { s.sh with inliers := c.sets.inliers }
  | some (.writeOutliers c) => goto (.unlock c) { s.sh with outliers := c.sets.outliers }
  | some (.unlock _) => some { s with holder := none, pcs := s.pcs.set i .stopTest }
  | some .stopTest =>
    if minIterations ≤ i ∧ stop < s.sh.inliers.length then goto .setQuit s.sh else goto .done s.sh
  | some .setQuit => goto .done { s.sh with canQuit := true }
  | some .done => none

/-- The states that the parallel loop can reach, for every interleaving and every shuffle of the matches. -/
inductive Par.Reach (p : Problem M Pose) (current : Pose) (l : List M) (stop n : Nat) : Par M Pose → Prop
  | init : Par.Reach p current l stop n (.init current n)
  | step {s s' : Par M Pose} (shuffled : List M) (i : Nat) : Par.Reach p current l stop n s →
      shuffled.Perm l → s.step p current l stop shuffled i = some s' → Par.Reach p current l stop n s'

/-- Has every iteration returned? -/
def Par.finished (s : Par M Pose) : Prop := ∀ pc ∈ s.pcs, pc = .done

/-- What `compute_pose_with_ransac` returns: success, final pose, match sets (`finalPose` and
`featureSets` are output parameters). -/
structure Result (M Pose : Type) where
  success : Bool
  pose : Pose
  inliers : List M
  outliers : List M

/-- End of `compute_pose_with_ransac`, pose_optimization.cpp:227-261. -/
def finish (p : Problem M Pose) (out : Pose) (s : Shared M Pose) : Result M Pose :=
  if setScore p s.inliers < 1 then ⟨false, out, [], []⟩
  else match globalPose p s.bestPose s.inliers with
    | some q => ⟨true, q, s.inliers, s.outliers⟩
    | none => ⟨false, out, [], []⟩

/-- `compute_pose_with_ransac`, default build, pose_optimization.cpp:107-262, as the relation between
the arguments and the possible results; `n` is `maximumIterations` (not 0), `out` the value of
`finalPose` before the call.  `terminate` when an iteration throws. -/
inductive Ransac (p : Problem M Pose) (current : Pose) (l : List M) (stop n : Nat) (out : Pose) :
    Outcome (Result M Pose) → Prop
  | few : setScore p l < 1 → Ransac p current l stop n out (.ok ⟨false, out, [], []⟩)
  | loop {s : Par M Pose} : ¬ setScore p l < 1 → Par.Reach p current l stop n s → s.finished →
      s.terminated = false → Ransac p current l stop n out (.ok (finish p out s.sh))
  | crash {s : Par M Pose} : ¬ setScore p l < 1 → Par.Reach p current l stop n s →
      s.terminated = true → Ransac p current l stop n out .terminate

/-- `compute_pose_with_ransac`, deterministic build. -/
def ransacSeq (p : Problem M Pose) (current : Pose) (l : List M) (stop : Nat) (out : Pose)
    (shuffles : List (List M)) : Outcome (Result M Pose) :=
  if setScore p l < 1 then .ok ⟨false, out, [], []⟩
  else ((seqLoop p current l stop 0 shuffles (.init current)).map (finish p out)).noexcept

/-- `compute_optimized_pose`, pose_optimization.cpp:264-300, for a consensus search and a variance
estimation: success, pose (with variance if it was estimated) and match sets as left in the output
parameters. -/
def optimizedPose {Var : Type} (valid : M → Bool) (l : List M) (out : Pose)
    (ransac : Outcome (Result M Pose)) (variance : Pose → List M → Option Var) :
    Outcome (Result M Pose × Option Var) :=
  if l.all valid then
    ransac.bind fun r =>
      if r.success then
        match variance r.pose r.inliers with
        | some v => .ok (r, some v)
        | none => .ok ({ r with success := false }, none)
      else .ok (r, none)
  else .ok (⟨false, out, [], []⟩, none)

end RgbdSlam.Ransac
