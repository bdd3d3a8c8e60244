import Verif.Lemmas.Matching
import Verif.Props.FeatureMap
/-
Matching of map features with the detections of a frame: C16 (which map stages a keypoint), C18 and C19
(a detection has at most one match), C20 (matches of 2D points), C58 (when candidates and the second
search are used).
-/
namespace RgbdSlam.Map

variable {P D Env : Type}

/-! ### A small concrete world for the examples -/

/-- Points are their screen position; descriptors are numbers. -/
def demoGeo : PointGeo Keypoints.Pt Nat Unit where
  isMoving _ := false
  isVisible _ _ := true
  project _ b := some b
  descriptor _ := 0
  distance a b := if a ≤ b then b - a else a - b
  update _ d _ := .ok (d.kp.pt, true)
  build _ d := some d.kp.pt
  copy b := some b
  upgrade _ _ := none
  buildUpgraded b := some b
  covValid _ := true

/-- A depth image of 640 x 480 pixels at 1 m. -/
def demoImage : Keypoints.DepthImage := ⟨640, 480, fun _ _ => 1000⟩

/-- A handler with two detected keypoints and one tracked for the map point of id 1. -/
def demoHandler : Outcome (Keypoints.Handler Nat) :=
  Keypoints.set demoImage [⟨100, 100⟩, ⟨300, 200⟩] [0, 0] [⟨1, ⟨105, 105⟩⟩] (Keypoints.create 640 480)

/-! ### C16 -/

/-- A detected keypoint offered to both point maps: with a descriptor, exactly one takes it, the 3D map
if the depth is more than 40 and at most 6000; without descriptor, none. -/
theorem C16_one_point_map {P P' Desc Cam : Type} (g : PointGeo P Desc Cam) (g' : PointGeo P' Desc Cam)
    (d : Keypoints.Detected Desc) :
    ((pointKind (handlerOps g)).canAdd d = true ↔ d.desc.isSome ∧ 40 < d.kp.depth ∧ d.kp.depth ≤ 6000) ∧
    ((point2dKind (handlerOps g')).canAdd d = true ↔
      d.desc.isSome ∧ ¬ (40 < d.kp.depth ∧ d.kp.depth ≤ 6000)) ∧
    ¬ ((pointKind (handlerOps g)).canAdd d = true ∧ (point2dKind (handlerOps g')).canAdd d = true) ∧
    (((pointKind (handlerOps g)).canAdd d = true ∨ (point2dKind (handlerOps g')).canAdd d = true) ↔
      d.desc.isSome) := by
  simp only [pointKind, point2dKind, handlerOps, depthValid]
  by_cases h : 40 < d.kp.depth ∧ d.kp.depth ≤ 6000 <;> cases d.desc.isSome <;> simp [h]

/-- A keypoint tracked by optical flow has no descriptor: it is never staged again. -/
theorem C16_tracked_not_staged {P Desc Cam : Type} (g : PointGeo P Desc Cam)
    (h0 h : Keypoints.Handler Desc) (im : Keypoints.DepthImage) (detected : List Keypoints.Pt)
    (descs : List Desc) (tracked : List Keypoints.Tracked) (hd : descs.length = detected.length)
    (e : Keypoints.set im detected descs tracked h0 = .ok h) (i : Nat) (hi : detected.length ≤ i)
    (d : Keypoints.Detected Desc) (hid : (Keypoints.detections h)[i]? = some d) :
    (pointKind (handlerOps g)).canAdd d = false ∧ (point2dKind (handlerOps g)).canAdd d = false := by
  obtain ⟨-, -, -, -, hde⟩ := Keypoints.set_spec e
  simp only [Keypoints.detections, List.getElem?_map, List.getElem?_zipIdx] at hid
  cases hk : h.keypoints[i]? with
  | none => rw [hk] at hid; cases hid
  | some k =>
    rw [hk] at hid
    simp only [Option.map_some, Option.some.injEq, Nat.zero_add] at hid
    have : d.desc = none := by
      rw [← hid]
      simp only [hde]
      exact List.getElem?_eq_none (by omega)
    simp [pointKind, point2dKind, handlerOps, this]

example : (demoHandler.holds fun h =>
    ((Keypoints.detections h).map fun d => ((pointKind (handlerOps demoGeo)).canAdd d,
      (point2dKind (handlerOps demoGeo)).canAdd d)) == [(true, false), (true, false), (false, false)])
    = true := by decide +kernel

/-! ### C18 -/

theorem ids_nodup {s : State P} (h : Inv s) : ((s.map.localMap ++ s.map.staged).map (·.2.id)).Nodup := by
  have := h.nodup
  rw [keys_eq_ids h.keyedL, keys_eq_ids h.keyedS, ← List.map_append] at this
  exact this

theorem exclusive_plane (o : PlaneOps P D Env) (env : Env) (det : List D) :
    Exclusive (planeKind o) env det (fun _ _ => False) where
  unique := fun h => h.elim
  find := by
    intro f fl b adv hfl i hi
    change i ∈ (planeFind o env det f fl b adv).1 at hi
    rcases planeFind_spec o env det f fl b adv with h | ⟨j, h, -, h2, h3, -⟩
    · rw [h] at hi; cases hi
    · rw [h, List.mem_singleton] at hi; subst hi
      refine .inl ⟨?_, fun _ h => h⟩
      rw [List.getElem?_eq_getElem (by omega)] at h3 ⊢
      simpa using h3
  single := by
    intro f fl b adv
    change (planeFind o env det f fl b adv).1.length ≤ 1
    rcases planeFind_spec o env det f fl b adv with h | ⟨j, h, -⟩ <;> simp [h]

theorem flatMap_features (s : State P) :
    (features s).flatMap (·.matched) = (s.map.localMap ++ s.map.staged).flatMap (·.2.matched) := by
  simp [features, List.flatMap_append, List.flatMap_map]

theorem mem_features {s : State P} {f : Feat P} (h : f ∈ features s) :
    ∃ p ∈ s.map.localMap ++ s.map.staged, p.2 = f := by
  unfold features at h
  rw [← List.map_append] at h
  obtain ⟨p, hp, rfl⟩ := List.mem_map.1 h
  exact ⟨p, hp, rfl⟩

/-- In every reachable plane map, after matching with any detections: no detected plane is in the
matches of two planes, a plane has at most one match, all indexes are in range, and the matches handed
to the optimisation are pairwise different detections. -/
theorem C18_plane_matches_exclusive_partial (o : PlaneOps P D Env) (ops : List (Op P D Env)) (s : State P)
    (hr : run (planeKind o) ops (State.init Alloc.start) = .ok s) (hlt : s.alloc.given < 2 ^ 64)
    (ha : s.map.active = true) (env : Env) (det : List D) (s' : State P)
    (hs : step (planeKind o) (.find env det) s = .ok s') :
    ((features s').flatMap (·.matched)).Nodup ∧
    (∀ f ∈ features s', f.matched.length ≤ 1 ∧ ∀ i ∈ f.matched, i < det.length) ∧
    ((getMatches (planeKind o) env det s.map).2.map (·.detected)).Nodup := by
  have hinv := inv_run inv_init hr hlt
  obtain ⟨a1, a2, a3⟩ := getMatches_excl (exclusive_plane o env det) s.map ha (ids_nodup hinv)
  injection hs with hs
  subst hs
  refine ⟨by rw [flatMap_features]; exact a1, ?_, ?_⟩
  · intro f hf
    obtain ⟨p, hp, rfl⟩ := mem_features hf
    exact ⟨a2 p hp, fun i hi => (a3 p hp i hi).resolve_right fun h => h⟩
  · exact a1.sublist (matches_sub (pushes_plane o) env det s.map ha)

/-- A plane is only matched to a detected plane that is similar to it (distance and normal). -/
theorem C18_plane_matches_similar (o : PlaneOps P D Env) (env : Env) (det : List D) (f : Feat P)
    (flags : List Bool) (toMatches advanced : Bool) (i : Nat)
    (hi : i ∈ ((planeKind o).findMatches env det f flags toMatches advanced).1) :
    ∃ d, det[i]? = some d ∧ o.similar env f.body d = true := by
  change i ∈ (planeFind o env det f flags toMatches advanced).1 at hi
  rcases planeFind_spec o env det f flags toMatches advanced with h | ⟨j, h, -, -, -, d, h1, h2⟩
  · rw [h] at hi; cases hi
  · rw [h, List.mem_singleton] at hi; subst hi
    exact ⟨d, h1, h2⟩

theorem matchPass_mem {k : Kind P D Env} {env : Env} {det : List D} {b adv : Bool} {l : Store P}
    {fl : List Bool} {p : Nat × Feat P} (hp : p ∈ (matchPass k env det b adv l fl).1) {i : Nat}
    (hi : i ∈ p.2.matched) : ∃ f fl', i ∈ (k.findMatches env det f fl' b adv).1 := by
  induction l generalizing fl with
  | nil => cases hp
  | cons q l ih =>
    obtain ⟨key, f⟩ := q
    simp only [matchPass] at hp
    split at hp
    · rcases List.mem_cons.1 hp with rfl | hp
      · cases hi
      · exact ih hp
    · rcases List.mem_cons.1 hp with rfl | hp
      · exact ⟨_, _, hi⟩
      · exact ih hp

theorem matchOnce_mem {k : Kind P D Env} {env : Env} {det : List D} {adv : Bool} {old : List Match}
    {m : FMap P} (ha : m.active = true) {p : Nat × Feat P}
    (hp : p ∈ (matchOnce k env det adv old m).1.localMap ++ (matchOnce k env det adv old m).1.staged)
    {i : Nat} (hi : i ∈ p.2.matched) : ∃ f fl' b adv, i ∈ (k.findMatches env det f fl' b adv).1 := by
  simp only [matchOnce, ha, Bool.not_true, Bool.false_eq_true, if_false] at hp
  rcases List.mem_append.1 hp with hp | hp
  · obtain ⟨f, fl', h⟩ := matchPass_mem hp hi; exact ⟨f, fl', _, _, h⟩
  · obtain ⟨f, fl', h⟩ := matchPass_mem hp hi; exact ⟨f, fl', _, _, h⟩

theorem getMatches_mem {k : Kind P D Env} {env : Env} {det : List D} {m : FMap P} (ha : m.active = true)
    {p : Nat × Feat P}
    (hp : p ∈ (getMatches k env det m).1.localMap ++ (getMatches k env det m).1.staged)
    {i : Nat} (hi : i ∈ p.2.matched) : ∃ f fl' b adv, i ∈ (k.findMatches env det f fl' b adv).1 := by
  rw [getMatches_eq k env det m ha] at hp
  split at hp
  · exact matchOnce_mem ha hp hi
  · exact matchOnce_mem ha hp hi

/-- The first detected plane of a frame is never matched, whatever the map and the detections: the
test for "nothing selected" is `selectedIndex <= 0`. -/
theorem C18_first_plane_never_matched_false (o : PlaneOps P D Env) (m : FMap P)
    (ha : m.active = true) (env : Env) (det : List D) :
    (∀ p ∈ (getMatches (planeKind o) env det m).1.localMap ++ (getMatches (planeKind o) env det m).1.staged,
      0 ∉ p.2.matched) ∧
    ∀ mt ∈ (getMatches (planeKind o) env det m).2, mt.detected ≠ 0 := by
  have h1 : ∀ p ∈ (getMatches (planeKind o) env det m).1.localMap ++
      (getMatches (planeKind o) env det m).1.staged, 0 ∉ p.2.matched := by
    intro p hp hi
    obtain ⟨f, fl, b, adv, h⟩ := getMatches_mem ha hp hi
    change 0 ∈ (planeFind o env det f fl b adv).1 at h
    rcases planeFind_spec o env det f fl b adv with h' | ⟨j, h', hj, -⟩
    · rw [h'] at h; cases h
    · rw [h', List.mem_singleton] at h; omega
  refine ⟨h1, fun mt hmt h0 => ?_⟩
  have := (matches_sub (pushes_plane o) env det m ha).subset (List.mem_map_of_mem hmt)
  rw [h0] at this
  obtain ⟨p, hp, hi⟩ := List.mem_flatMap.1 this
  exact h1 p hp hi

/-- A map plane and one exact counterpart, the only detection of each frame: never matched, the
candidate is dropped; as second detection it is matched. -/
example :
    ((run demoPlane (demoFrame [7] [] ++ [.find () [7]]) (State.init Alloc.start)).holds fun s =>
      (features s).map (·.matched) == [[]]) = true ∧
    ((run demoPlane (demoFrame [8, 7] [] ++ [.find () [8, 7]]) (State.init Alloc.start)).holds fun s =>
      (features s).map (·.matched) == [[], [1]]) = true := by decide +kernel

/-! ### C19 -/

/-- In every reachable 3D point map, after matching with the keypoints of a frame (detected and tracked
by optical flow): no keypoint is in the matches of two map points, a point has at most one match, all
indexes are in range, and the matches handed to the optimisation are pairwise different keypoints. -/
theorem C19_point_matches_exclusive {Desc Cam : Type} (g : PointGeo P Desc Cam)
    (ops : List (Op P (Keypoints.Detected Desc) (Cam × Keypoints.Handler Desc))) (s : State P)
    (hr : run (pointKind (handlerOps g)) ops (State.init Alloc.start) = .ok s)
    (hlt : s.alloc.given < 2 ^ 64) (ha : s.map.active = true)
    (h0 h : Keypoints.Handler Desc) (im : Keypoints.DepthImage) (detected : List Keypoints.Pt)
    (descs : List Desc) (tracked : List Keypoints.Tracked)
    (e : Keypoints.set im detected descs tracked h0 = .ok h) (c : Cam) (s' : State P)
    (hs : step (pointKind (handlerOps g)) (.find (c, h) (Keypoints.detections h)) s = .ok s') :
    ((features s').flatMap (·.matched)).Nodup ∧
    (∀ f ∈ features s', f.matched.length ≤ 1 ∧
      ∀ i ∈ f.matched, i < detected.length + tracked.length) ∧
    ((getMatches (pointKind (handlerOps g)) (c, h) (Keypoints.detections h) s.map).2.map
      (·.detected)).Nodup := by
  obtain ⟨hf, -⟩ := Keypoints.set_spec e
  have hinv := inv_run inv_init hr hlt
  obtain ⟨a1, a2, a3⟩ := getMatches_excl (exclusive_point g c hf (Keypoints.detections h)) s.map ha
    (ids_nodup hinv)
  injection hs with hs
  subst hs
  refine ⟨by rw [flatMap_features]; exact a1, ?_, ?_⟩
  · intro f hf'
    obtain ⟨p, hp, rfl⟩ := mem_features hf'
    refine ⟨a2 p hp, fun i hi => ?_⟩
    rcases a3 p hp i hi with h1 | h1
    · rw [keypoints_length hf] at h1; exact h1
    · obtain ⟨t, h2, h3, -⟩ := trackIndex_spec hf h1
      have := (List.getElem?_eq_some_iff.1 h2).1
      omega
  · exact a1.sublist (matches_sub (pushes_point _) _ _ s.map ha)

/-- The same for the 2D point map. -/
theorem C19_point2d_matches_exclusive {Desc Cam : Type} (g : PointGeo P Desc Cam)
    (ops : List (Op P (Keypoints.Detected Desc) (Cam × Keypoints.Handler Desc))) (s : State P)
    (hr : run (point2dKind (handlerOps g)) ops (State.init Alloc.start) = .ok s)
    (hlt : s.alloc.given < 2 ^ 64) (ha : s.map.active = true)
    (h0 h : Keypoints.Handler Desc) (im : Keypoints.DepthImage) (detected : List Keypoints.Pt)
    (descs : List Desc) (tracked : List Keypoints.Tracked)
    (e : Keypoints.set im detected descs tracked h0 = .ok h) (c : Cam) (s' : State P)
    (hs : step (point2dKind (handlerOps g)) (.find (c, h) (Keypoints.detections h)) s = .ok s') :
    ((features s').flatMap (·.matched)).Nodup ∧
    (∀ f ∈ features s', f.matched.length ≤ 1 ∧
      ∀ i ∈ f.matched, i < detected.length + tracked.length) := by
  obtain ⟨hf, -⟩ := Keypoints.set_spec e
  have hinv := inv_run inv_init hr hlt
  obtain ⟨a1, a2, a3⟩ := getMatches_excl (exclusive_point2d g c hf (Keypoints.detections h)) s.map ha
    (ids_nodup hinv)
  injection hs with hs
  subst hs
  refine ⟨by rw [flatMap_features]; exact a1, ?_⟩
  intro f hf'
  obtain ⟨p, hp, rfl⟩ := mem_features hf'
  refine ⟨a2 p hp, fun i hi => ?_⟩
  have := (a3 p hp i hi).resolve_right fun h => h
  rwa [keypoints_length hf] at this

/-- Two points staged from one frame and searched for in the next, where the first is tracked (keypoint
number 2) and the second found around its projection (number 1). -/
example : (demoHandler.holds fun h =>
    (run (pointKind (handlerOps demoGeo))
      [.find ((), h) (Keypoints.detections h), .update 10 ((), h) (Keypoints.detections h),
       .stage ((), h) (Keypoints.detections h) [], .find ((), h) (Keypoints.detections h)]
      (State.init Alloc.start)).holds fun s => (features s).map (·.matched) == [[2], [1]]) = true := by
  decide +kernel

/-! ### C20 -/

/-- A 2D point never contributes a match to the pose optimisation, whatever the map and the frame. -/
theorem C20_2d_points_never_contribute_false (o : PointOps P D Env) (env : Env) (det : List D)
    (m : FMap P) : (getMatches (point2dKind o) env det m).2 = [] := by
  have hk : ∀ env det f fl b adv, ((point2dKind o).findMatches env det f fl b adv).2 = [] := by
    intro env det f fl b adv
    simp only [point2dKind, point2dFind]
    split
    · rfl
    · cases b <;> rfl
  have h1 : ∀ adv (m : FMap P), (matchOnce (point2dKind o) env det adv [] m).2 = [] := by
    intro adv m
    unfold matchOnce
    split
    · rfl
    · simp [matchPass_none hk]
  cases ha : m.active with
  | false => simp [getMatches, matchOnce, ha]
  | true =>
    rw [getMatches_eq _ _ _ _ ha]
    split
    · exact h1 true m
    · exact h1 false m

/-- A depth image without depth. -/
def demoDark : Outcome (Keypoints.Handler Nat) :=
  Keypoints.set ⟨640, 480, fun _ _ => 0⟩ [⟨100, 100⟩, ⟨300, 200⟩] [0, 0] [] (Keypoints.create 640 480)

/-- The counterparts of two 2D points are found (the points are matched), still there is no match for
the optimisation. -/
example : (demoDark.holds fun h =>
    (run (point2dKind (handlerOps demoGeo))
      [.find ((), h) (Keypoints.detections h), .update 10 ((), h) (Keypoints.detections h),
       .stage ((), h) (Keypoints.detections h) [], .find ((), h) (Keypoints.detections h)]
      (State.init Alloc.start)).holds fun s => (features s).map (·.matched) == [[0], [1]] &&
        (getMatches (point2dKind (handlerOps demoGeo)) ((), h) (Keypoints.detections h) s.map).2 == [])
    = true := by decide +kernel

/-! ### C58 -/

/-- The matches given to the optimisation by the 3D point map: those of all map points, followed by those
of all candidates exactly if the map points have fewer than 15. -/
theorem C58_point_candidates (o : PointOps P D Env) (env : Env) (det : List D) (m : FMap P)
    (ha : m.active = true) :
    let r := getMatches (pointKind o) env det m
    r.2 = matchesOf .point r.1.localMap ++
      if (matchesOf .point r.1.localMap).length < 15 then matchesOf .point r.1.staged else [] :=
  getMatches_matches (pushes_point o) env det m ha

/-- The same for planes, with 9. -/
theorem C58_plane_candidates (o : PlaneOps P D Env) (env : Env) (det : List D) (m : FMap P)
    (ha : m.active = true) :
    let r := getMatches (planeKind o) env det m
    r.2 = matchesOf .plane r.1.localMap ++
      if (matchesOf .plane r.1.localMap).length < 9 then matchesOf .plane r.1.staged else [] :=
  getMatches_matches (pushes_plane o) env det m ha

/-- The second (advanced) search is made exactly if the first gave fewer matches than the minimum of the
feature type; then matches and map are those of the second search alone, as if the first had not been
made. -/
theorem C58_second_search (k : Kind P D Env) (env : Env) (det : List D) (m : FMap P)
    (ha : m.active = true) :
    ((matchOnce k env det false [] m).2.length < k.minFeatures →
      getMatches k env det m = matchOnce k env det true [] m) ∧
    (k.minFeatures ≤ (matchOnce k env det false [] m).2.length →
      getMatches k env det m = matchOnce k env det false [] m) := by
  rw [getMatches_eq k env det m ha]
  constructor
  · intro h; rw [if_pos h]
  · intro h; rw [if_neg (by omega)]

/-- Staged points contribute matches here (2 candidates, no map point). -/
example : (demoHandler.holds fun h =>
    (run (pointKind (handlerOps demoGeo))
      [.find ((), h) (Keypoints.detections h), .stage ((), h) (Keypoints.detections h) []]
      (State.init Alloc.start)).holds fun s =>
        (getMatches (pointKind (handlerOps demoGeo)) ((), h) (Keypoints.detections h) s.map).2 ==
          [⟨.point, 1, 2⟩, ⟨.point, 2, 1⟩]) = true := by
  decide +kernel

end RgbdSlam.Map
