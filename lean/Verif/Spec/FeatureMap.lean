import Verif.Model.MapKinds
/-
Vocabulary for the properties of feature maps: where a feature is, what happened to it, the ids used.
-/
namespace RgbdSlam.Map

variable {P D Env : Type}

/-! ### Ids -/

/-- The id returned by call number `n` (from 0) of the id allocator of the program. -/
def nthId (n : Nat) : Nat := (Alloc.start.skip (n + 1)).last

/-- All features of the map, candidates included. -/
def features (s : State P) : List (Feat P) :=
  s.map.localMap.map (·.2) ++ s.map.staged.map (·.2)

/-- Everything sent to the map writer if the map is destroyed in this state. -/
def exported (s : State P) : List (Feat P) := s.written ++ destroyed s.map

/-! ### One feature id, seen from outside -/

/-- Where a feature is. -/
inductive Place where
  | absent | staged | mapped
  deriving DecidableEq, Repr

/-- Where the feature of id `x` is. -/
def place (s : State P) (x : Nat) : Place :=
  if ∃ f ∈ s.map.localMap, f.2.id = x then .mapped
  else if ∃ f ∈ s.map.staged, f.2.id = x then .staged
  else .absent

/-- The feature of id `x`, if any. -/
def featureOf (s : State P) (x : Nat) : Option (Feat P) := (features s).find? (·.id = x)

/-- Does one of the detections matched to `f` update it successfully? -/
def accepted (k : Kind P D Env) (env : Env) (det : List D) : List Nat → Feat P → Bool
  | [], _ => false
  | i :: is, f =>
    match det[i]? with
    | none => false
    | some d =>
      match k.updateWith env d f with
      | .ok (body, good) => good || accepted k env det is { f with body := body }
      | _ => false

/-- What a call means for the feature of id `x`: `some true`, it is matched and updated; `some false`,
it is a frame where it is not; `none`, the call is not a frame for it (or it is not in the map). -/
def eventOf (k : Kind P D Env) (op : Op P D Env) (s : State P) (x : Nat) : Option Bool :=
  if !s.map.active then none
  else
    match featureOf s x with
    | none => none
    | some f =>
      match op with
      | .update _ env det => if k.covValid env then some (accepted k env det f.matched f) else none
      | .noTracking => some false
      | _ => none

/-- The matches and misses of feature `x` along a history, oldest first. -/
def events (k : Kind P D Env) : List (Op P D Env) → State P → Nat → List Bool
  | [], _, _ => []
  | op :: ops, s, x =>
    match step k op s with
    | .ok s' => (eventOf k op s x).toList ++ events k ops s' x
    | _ => []

/-- The calls that take features out of a map for another reason than missing matches: `reset`, and
the extraction of upgraded features if the feature type has upgrades. -/
def Keeps (k : Kind P D Env) : Op P D Env → Prop
  | .reset => False
  | .takeUpgrades env => ∀ f, k.upgrade env f = none
  | _ => True

/-- The feature content after the detections matched to it were merged in, in order. -/
def bodyAfter (k : Kind P D Env) (env : Env) (det : List D) : List Nat → Feat P → P
  | [], f => f.body
  | i :: is, f =>
    match det[i]? with
    | none => f.body
    | some d =>
      match k.updateWith env d f with
      | .ok (body, _) => bodyAfter k env det is { f with body := body }
      | _ => f.body

/-- In this call the feature `x` is updated with a pose and is then a moving one (such features are
dropped without being exported). -/
def LeftMoving (k : Kind P D Env) (op : Op P D Env) (s : State P) (x : Nat) : Prop :=
  ∃ fuel env det f, op = .update fuel env det ∧ featureOf s x = some f ∧
    k.isMoving (bodyAfter k env det f.matched f) = true

/-- The same at some point of a history. -/
def EverLeftMoving (k : Kind P D Env) : List (Op P D Env) → State P → Nat → Prop
  | [], _, _ => False
  | op :: ops, s, x =>
    LeftMoving k op s x ∨ match step k op s with
      | .ok s' => EverLeftMoving k ops s' x
      | _ => False

/-- What should be staged from the detections `ds` (numbered from `i`): in order, each one that is not
used by another feature, that the feature type admits and whose construction does not fail. -/
def wanted (k : Kind P D Env) (env : Env) (used : List Nat) : Nat → List D → List P
  | _, [] => []
  | i, d :: ds =>
    if used.contains i then wanted k env used (i + 1) ds
    else if k.canAdd d then
      match k.build env d with
      | some body => body :: wanted k env used (i + 1) ds
      | none => wanted k env used (i + 1) ds
    else wanted k env used (i + 1) ds

/-- The store with exactly the matches listed in `os` (feature type `t`, feature id, detection) removed
and nothing else changed. -/
def withoutMatches (t : FType) (os : List Match) (l : Store P) : Store P :=
  l.map fun p => (p.1, { p.2 with
    matched := p.2.matched.filter fun d =>
      !(decide (∃ o ∈ os, o.type = t ∧ o.idInMap = p.2.id ∧ o.detected = d)) })

/-- The matches of the features of a store, as given to the pose optimisation. -/
def matchesOf (t : FType) (l : Store P) : List Match :=
  l.flatMap fun p => p.2.matched.map (⟨t, p.2.id, ·⟩)

/-! ### Sequences of matches (`true`) and misses (`false`) -/

/-- Matches minus misses. -/
def net (es : List Bool) : Int := (es.count true : Int) - (es.count false : Int)

/-- `n` misses in a row somewhere. -/
def MissesInARow (n : Nat) (es : List Bool) : Prop := List.replicate n false <:+: es

/-- A point candidate stays a candidate: matches minus misses stays 1 or 2 after every frame. -/
def PointUndecided (es : List Bool) : Prop :=
  ∀ m, 0 < m → m ≤ es.length → 0 < net (es.take m) ∧ net (es.take m) < 3

/-- A point candidate becomes a map point with the `n`-th frame: matches minus misses reaches 3 for
the first time, and was never 0 or less. -/
def PointPromotedAt (n : Nat) (es : List Bool) : Prop :=
  0 < n ∧ n ≤ es.length ∧ net (es.take n) = 3 ∧ PointUndecided (es.take (n - 1))

/-- A plane candidate stays a candidate: never matches minus misses 4, never two misses in a row. -/
def PlaneUndecided (es : List Bool) : Prop :=
  (∀ m, m ≤ es.length → net (es.take m) < 4) ∧ ¬ MissesInARow 2 es

/-- A plane candidate becomes a map plane with the `n`-th frame: matches minus misses reaches 4 for
the first time, without two misses in a row before. -/
def PlanePromotedAt (n : Nat) (es : List Bool) : Prop :=
  0 < n ∧ n ≤ es.length ∧ net (es.take n) = 4 ∧ PlaneUndecided (es.take (n - 1))

end RgbdSlam.Map
