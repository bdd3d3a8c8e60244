import Verif.Model.TrackedFeatures
import Verif.Spec.TrackedFeatures
import Verif.Props.LocalMap
import Verif.Props.Keypoints
import Verif.Model.KeypointDetection
import Verif.Props.Ransac
import Verif.Lemmas.System
import Verif.Model.Geometry
import Mathlib.Tactic.Linarith
/-
C132: the points followed by optical flow.  C133: all of them are refreshed some day.
-/
namespace RgbdSlam.Map

open Spec (followable sampled)

variable {P Px D Env : Type}

theorem draw_zero_iff {r : Rat} (h0 : 0 ≤ r) : (r * ((10 : Nat) - (0 : Nat) : Rat)).floor.toNat = 0 ↔ r < 1 / 10 := by
  have h1 : (r * ((10 : Nat) - (0 : Nat) : Rat)) = r * 10 := by norm_num
  rw [h1]
  have hnn : 0 ≤ (r * 10).floor := by rw [Rat.le_floor_iff]; push_cast; linarith
  constructor
  · intro h
    have h2 : (r * 10).floor < 1 := by omega
    rw [Rat.floor_lt_iff] at h2
    push_cast at h2
    linarith
  · intro h
    have h2 : (r * 10).floor < 1 := by rw [Rat.floor_lt_iff]; push_cast; linarith
    omega

theorem addToTracked_eq (project : P → Option Px) (draws : Draws) (n : Nat) (h0 : 0 ≤ draws n) (f : Feat P) :
    addToTracked project 10 draws n f =
      .ok (if draws n < 1 / 10 then [] else ((project f.body).map (f.id, ·)).toList, n + 1) := by
  have hr : Ransac.randomUint (draws n) 0 10 =
      .ok (0 + (draws n * ((10 : Nat) - (0 : Nat) : Rat)).floor.toNat) := by
    unfold Ransac.randomUint; rfl
  unfold addToTracked
  rw [hr]
  by_cases h : draws n < 1 / 10
  · have h3 : ¬ 0 + (draws n * ((10 : Nat) - (0 : Nat) : Rat)).floor.toNat ≠ 0 := by
      have := (draw_zero_iff h0).2 h
      omega
    simp only [Outcome.map, Outcome.bind, Outcome.noexcept, if_pos h, decide_eq_false h3]
    rfl
  · have h2 : (draws n * ((10 : Nat) - (0 : Nat) : Rat)).floor.toNat ≠ 0 := fun e => h ((draw_zero_iff h0).1 e)
    have h3 : 0 + (draws n * ((10 : Nat) - (0 : Nat) : Rat)).floor.toNat ≠ 0 := by omega
    simp only [Outcome.map, Outcome.bind, Outcome.noexcept, h, if_false, decide_eq_true h3]
    rw [if_neg (by decide)]
    cases project f.body <;> simp

theorem trackStore_eq (visible : P → Bool) (project : P → Option Px) (draws : Draws)
    (h0 : ∀ i, 0 ≤ draws i) (n : Nat) (l : Store P) :
    ∃ k, trackStore visible project 10 draws n l = .ok
      ((((((l.map (·.2)).filter fun f => decide (f.matched ≠ []) && visible f.body).zipIdx n).filter
        fun fi => decide (1 / 10 ≤ draws fi.2)).map (·.1)).filterMap
          fun f => (project f.body).map (f.id, ·), k) := by
  induction l generalizing n with
  | nil => exact ⟨n, rfl⟩
  | cons p l ih =>
    obtain ⟨key, f⟩ := p
    by_cases hv : (decide (f.matched ≠ []) && visible f.body) = true
    · have hv' : (!f.matched.isEmpty && visible f.body) = true := by
        rw [Bool.and_eq_true] at hv ⊢
        refine ⟨?_, hv.2⟩
        have := hv.1
        cases hm : f.matched <;> simp_all
      obtain ⟨k, hk⟩ := ih (n + 1)
      refine ⟨k, ?_⟩
      rw [trackStore, if_pos hv', addToTracked_eq project draws n (h0 n), Outcome.bind_ok]
      simp only [hk, Outcome.bind_ok, List.map_cons]
      rw [List.filter_cons, if_pos hv, List.zipIdx_cons, List.filter_cons]
      by_cases hd : draws n < 1 / 10
      · rw [if_pos hd, if_neg (by simpa using hd)]
        rfl
      · rw [if_neg hd, if_pos (by simpa using hd), List.map_cons, List.filterMap_cons]
        cases project f.body <;> rfl
    · have hv' : (!f.matched.isEmpty && visible f.body) = false := by
        rw [Bool.eq_false_iff]
        intro h
        apply hv
        rw [Bool.and_eq_true] at h ⊢
        refine ⟨?_, h.2⟩
        have := h.1
        cases hm : f.matched <;> simp_all
      obtain ⟨k, hk⟩ := ih n
      refine ⟨k, ?_⟩
      rw [trackStore, hv', if_neg (by decide), hk]
      simp only [List.map_cons]
      rw [List.filter_cons, if_neg hv]

/-- C132: what is followed by optical flow are exactly the matched and visible map points, each with its id
and its projection, except those left out by the draw; no plane, no point without depth, no candidate. -/
theorem C132_followed_points (visible : P → Bool) (project : P → Option Px) (draws : Draws)
    (h0 : ∀ i, 0 ≤ draws i) (w : World P) (ha : (w.maps .point).active = true) :
    w.trackedFeatures visible project draws = .ok ((sampled draws (followable visible (w.maps .point))).filterMap
      fun f => (project f.body).map fun px => (f.id, px)) := by
  unfold World.trackedFeatures
  dsimp only
  split
  · rename_i h
    have h1 : (w.maps .point).localMap = [] := by
      rw [← List.length_eq_zero_iff]
      simp [order] at h
      simp [h]
    simp [sampled, followable, h1]
  · obtain ⟨k, hk⟩ := trackStore_eq visible project draws h0 0 (w.maps .point).localMap
    have hp := hk
    rw [show trackStore visible project 10 draws 0 (w.maps .point).localMap =
      trackMap visible project 10 draws 0 .point (w.maps .point) by
        simp only [trackMap, ha, Bool.not_true, Bool.false_eq_true, if_false, hk, Outcome.noexcept]] at hp
    have h2 : trackMap visible project 10 draws 0 .point2d (w.maps .point2d) = .ok ([], 0) := by
      unfold trackMap; split <;> rfl
    have h3 : trackMap visible project 10 draws k .plane (w.maps .plane) = .ok ([], k) := by
      unfold trackMap; split <;> rfl
    change (trackMaps visible project 10 draws w 0 order).noexcept = _
    simp only [order, trackMaps, h2, hp, h3, Outcome.bind, Outcome.map, Outcome.noexcept, List.nil_append,
      List.append_nil]
    rfl

/-- C132: a deactivated point map gives nothing to follow. -/
theorem C132_inactive (visible : P → Bool) (project : P → Option Px) (draws : Draws) (w : World P)
    (ha : (w.maps .point).active = false) : w.trackedFeatures visible project draws = .ok [] := by
  unfold World.trackedFeatures
  dsimp only
  split
  · rfl
  · have hp : ∀ n t, trackMap visible project (Slam.keypointRefreshFrequency * 2) draws n t (w.maps t) = .ok ([], n) := by
      intro n t
      unfold trackMap
      cases t
      · split <;> rfl
      · rw [ha]; rfl
      · split <;> rfl
    simp only [order, trackMaps, hp, Outcome.bind, Outcome.map, Outcome.noexcept, List.nil_append]

theorem sampled_sublist (draws : Draws) (l : List (Feat P)) : (sampled draws l).Sublist l := by
  unfold sampled
  have h := (List.filter_sublist (p := fun fi : Feat P × Nat => decide (1 / 10 ≤ draws fi.2))
    (l := l.zipIdx)).map (·.1)
  rwa [List.zipIdx_map_fst] at h

theorem followed_sublist (visible : P → Bool) (project : P → Option Px) (draws : Draws) (m : FMap P) :
    (((sampled draws (followable visible m)).filterMap fun f => (project f.body).map fun px => (f.id, px)).map
      (·.1)).Sublist (m.localMap.map (·.2.id)) := by
  have h1 : (((sampled draws (followable visible m)).filterMap fun f => (project f.body).map fun px =>
      (f.id, px)).map (·.1)).Sublist ((sampled draws (followable visible m)).map (·.id)) := by
    rw [List.map_filterMap]
    apply Keypoints.filterMap_sublist_map
    intro f _ x hx
    cases hp : project f.body with
    | none => rw [hp] at hx; cases hx
    | some px => rw [hp] at hx; simpa using hx.symm
  refine h1.trans ((sampled_sublist draws _).map _ |>.trans ?_)
  have h2 := (List.filter_sublist (p := fun f : Feat P => decide (f.matched ≠ []) && visible f.body)
    (l := m.localMap.map (·.2))).map (·.id)
  rwa [List.map_map] at h2

/-- C132: in every state the program can reach, no id is followed twice, and the ids followed are those of
points of the map, never of candidates, of other features or of features already exported. -/
theorem C132_ids (o2 o1 : PointOps P D Env) (op : PlaneOps P D Env) (cov : Env → Bool)
    (ops : List (WOp D Env)) (w : World P)
    (hr : World.run (programKinds o2 o1 op) cov ops World.init = .ok w) (hlt : w.alloc.given < 2 ^ 64)
    (visible : P → Bool) (project : P → Option Px) (draws : Draws) (h0 : ∀ i, 0 ≤ draws i) :
    ∃ l, w.trackedFeatures visible project draws = .ok l ∧ (l.map (·.1)).Nodup ∧
      ∀ x ∈ l, x.1 ≠ 0 ∧ (∃ p ∈ (w.maps .point).localMap, p.1 = x.1 ∧ p.2.id = x.1) ∧
        ∀ t, ∀ f ∈ features (w.view t) ++ w.written t, f.id = x.1 → t = .point ∧ f ∈ (w.maps .point).localMap.map (·.2) := by
  have hm := run_micros (programKinds_type o2 o1 op) hr
  have hi := winv_micros hm winv_init hlt
  have ha : (w.maps .point).active = true := by
    rw [micros_active hm .point]; rfl
  refine ⟨_, C132_followed_points visible project draws h0 w ha, ?_, ?_⟩
  · refine List.Nodup.sublist (followed_sublist visible project draws _) ?_
    have h := keys_eq_ids (hi.each .point).keyedL
    have h1 := (List.nodup_append.1 (hi.each .point).nodup).1
    rw [h] at h1
    exact h1
  · intro x hx
    have hx1 : x.1 ∈ (w.maps .point).localMap.map (·.2.id) :=
      (followed_sublist visible project draws _).subset (List.mem_map_of_mem hx)
    obtain ⟨p, hp, hpx⟩ := List.mem_map.1 hx1
    have hk : p.1 = p.2.id := (hi.each .point).keyedL p hp
    have hkL := keys_eq_ids (hi.each .point).keyedL
    have hin : x.1 ∈ keys (w.view .point).map.localMap := by rw [hkL]; exact hx1
    have hid : x.1 ∈ idsOf (w.view .point) := List.mem_append_left _ (List.mem_append_left _ hin)
    refine ⟨?_, ⟨p, hp, by rw [hk, hpx], hpx⟩, fun t f hf hfx => ?_⟩
    · have := ((hi.each .point).range x.1 (List.mem_append_left _ hin)).1
      omega
    · have hkt : f.id ∈ idsOf (w.view t) := by
        unfold idsOf
        rw [keys_eq_ids (hi.each t).keyedL, keys_eq_ids (hi.each t).keyedS]
        rcases List.mem_append.1 hf with hf | hf
        · refine List.mem_append_left _ ?_
          unfold features at hf
          rcases List.mem_append.1 hf with hf | hf
          · obtain ⟨q, hq, rfl⟩ := List.mem_map.1 hf
            exact List.mem_append_left _ (List.mem_map_of_mem (f := fun q : Nat × Feat P => q.2.id) hq)
          · obtain ⟨q, hq, rfl⟩ := List.mem_map.1 hf
            exact List.mem_append_right _ (List.mem_map_of_mem (f := fun q : Nat × Feat P => q.2.id) hq)
        · exact List.mem_append_right _ (List.mem_map_of_mem (f := fun f : Feat P => f.id) hf)
      have ht : t = .point := Classical.byContradiction fun hne => hi.apart t .point hne _ hkt (hfx ▸ hid)
      subst ht
      refine ⟨rfl, ?_⟩
      rcases List.mem_append.1 hf with hf | hf
      · unfold features at hf
        rcases List.mem_append.1 hf with hf | hf
        · exact hf
        · obtain ⟨q, hq, rfl⟩ := List.mem_map.1 hf
          have h1 : x.1 ∈ keys (w.view .point).map.staged := by
            rw [keys_eq_ids (hi.each .point).keyedS, ← hfx]
            exact List.mem_map_of_mem (f := fun q : Nat × Feat P => q.2.id) hq
          exact absurd rfl ((List.nodup_append.1 (hi.each .point).nodup).2.2 _ hin _ h1)
      · exact absurd (List.mem_append_left _ hin) ((hi.each .point).wfresh x.1
          (hfx ▸ List.mem_map_of_mem (f := fun f : Feat P => f.id) hf))

/-! ## From one frame to the next -/

/-- C132: the ids found again in the next image.  The keypoints computed from the points followed (at the
positions where they project) give the keypoint `i` to the map point `x` only if `x` is a matched and visible
point of the map, whose projection the optical flow has led, forwards, to the position of the keypoint. -/
theorem C132_found_again {Desc : Type} (visible : P → Bool) (project : P → Option Keypoints.Pt) (draws : Draws)
    (h0 : ∀ i, 0 ≤ draws i) (w : World P) (ha : (w.maps .point).active = true)
    (cols rows : Nat) (im : Keypoints.DepthImage) (hasPyramid force : Bool) (l : List (Nat × Keypoints.Pt))
    (hl : w.trackedFeatures visible project draws = .ok l)
    (a : KeypointDetection.Answers Desc) (hlen : ∀ ps, (a.forward ps).length = ps.length)
    (h h' : Keypoints.Handler Desc)
    (hk : KeypointDetection.computeKeypoints cols rows im hasPyramid (l.map fun x => ⟨x.1, x.2⟩) force a h = .ok h')
    {x i : Nat} (hx : Keypoints.trackIndex h' x = some i) :
    ∃ f ∈ (w.maps .point).localMap.map (·.2), f.id = x ∧ f.matched ≠ [] ∧ visible f.body = true ∧
      ∃ px, project f.body = some px ∧ ∃ j : Nat, l[j]? = some (x, px) ∧
        ∃ fl : Keypoints.Flow, (a.forward (l.map (·.2)))[j]? = some fl ∧
          ∃ k, h'.keypoints[i]? = some k ∧ k.pt = fl.pt := by
  have hfol := C132_followed_points visible project draws h0 w ha
  rw [hl] at hfol
  injection hfol with hfol
  unfold KeypointDetection.computeKeypoints at hk
  dsimp only at hk
  obtain ⟨t, ht1, -, htx, k, hk1, hk2⟩ := (Keypoints.C50_lookup_returns_tracked_keypoint _ _ _ _ _ _ hk x).1 i hx
  have ht := List.mem_of_getElem? ht1
  split at ht
  · have hm : (l.map fun x => (⟨x.1, x.2⟩ : Keypoints.Tracked)).map (·.pt) = l.map (·.2) := by
      rw [List.map_map]; rfl
    rw [hm] at ht
    have hsub := (Keypoints.C50_flow_keeps_ids cols rows (l.map fun x => (⟨x.1, x.2⟩ : Keypoints.Tracked))
      (a.forward (l.map (·.2))) (by rw [hlen]; simp) a.backward).2
    have ht' := hsub.subset ht
    obtain ⟨⟨t0, fl⟩, hz, hzt⟩ := List.mem_map.1 ht'
    obtain ⟨j, hj⟩ := List.mem_iff_getElem?.1 hz
    rw [List.getElem?_zip_eq_some] at hj
    obtain ⟨hj1, hj2⟩ := hj
    rw [List.getElem?_map, Option.map_eq_some_iff] at hj1
    obtain ⟨⟨id, px⟩, hj1, rfl⟩ := hj1
    have hid : id = x := by rw [← htx, ← hzt]
    subst hid
    have hmem := List.mem_of_getElem? hj1
    rw [hfol, List.mem_filterMap] at hmem
    obtain ⟨f, hf, hfp⟩ := hmem
    cases hp : project f.body with
    | none => rw [hp] at hfp; cases hfp
    | some px' =>
      rw [hp] at hfp
      simp only [Option.map_some, Option.some.injEq, Prod.mk.injEq] at hfp
      obtain ⟨e1, rfl⟩ := hfp
      have hf1 := (sampled_sublist draws _).subset hf
      unfold followable at hf1
      rw [List.mem_filter, Bool.and_eq_true, decide_eq_true_eq] at hf1
      exact ⟨f, hf1.1, e1, hf1.2.1, hf1.2.2, px', hp, j, hj1, fl, hj2, k, hk1, by rw [hk2, ← hzt]⟩
  · cases ht

/-! ## The positions followed -/

open Geometry in
/-- C132: with the visibility and the projection of 3D points (src/map_management/map_features/map_point.cpp
166-174, src/coordinates/point_coordinates.cpp 227-243): every position followed is inside the image, and is
the projection of a map point in front of the camera. -/
theorem C132_positions (K : M3) (w2c : M4) (width height : ℕ) (coordinates : P → V3)
    (visible : P → Bool) (project : P → Option V2)
    (hv : ∀ b, visible b = match cameraToScreen K (pointToCamera w2c (coordinates b)) with
      | some s => inScreen width height s
      | none => false)
    (hp : ∀ b, project b = (cameraToScreen K (pointToCamera w2c (coordinates b))).map fun s => ![s 0, s 1])
    (draws : Draws) (h0 : ∀ i, 0 ≤ draws i) (w : World P) (ha : (w.maps .point).active = true)
    (l : List (Nat × V2)) (hl : w.trackedFeatures visible project draws = .ok l) :
    ∀ x ∈ l, (0 ≤ x.2 0 ∧ x.2 0 ≤ width ∧ 0 ≤ x.2 1 ∧ x.2 1 ≤ height) ∧
      ∃ f ∈ (w.maps .point).localMap.map (·.2), f.id = x.1 ∧ 0 < pointToCamera w2c (coordinates f.body) 2 ∧
        ∃ s, cameraToScreen K (pointToCamera w2c (coordinates f.body)) = some s ∧ x.2 = ![s 0, s 1] := by
  have hfol := C132_followed_points visible project draws h0 w ha
  rw [hl] at hfol
  injection hfol with hfol
  intro x hx
  rw [hfol, List.mem_filterMap] at hx
  obtain ⟨f, hf, hfp⟩ := hx
  have hf1 := (sampled_sublist draws _).subset hf
  unfold followable at hf1
  rw [List.mem_filter, Bool.and_eq_true, decide_eq_true_eq, hv] at hf1
  rw [hp] at hfp
  cases hs : cameraToScreen K (pointToCamera w2c (coordinates f.body)) with
  | none => rw [hs] at hfp; cases hfp
  | some s =>
    rw [hs] at hfp hf1
    cases hfp
    have hin := hf1.2.2
    simp only [inScreen, Bool.and_eq_true, decide_eq_true_eq] at hin
    obtain ⟨⟨⟨⟨a, b⟩, c⟩, d⟩, e⟩ := hin
    have hz : s 2 = pointToCamera w2c (coordinates f.body) 2 := by
      unfold cameraToScreen at hs
      split at hs
      · cases hs
      · cases hs; rfl
    exact ⟨⟨a, b, c, d⟩, f, hf1.1, rfl, hz ▸ e, s, hs, rfl⟩

/-! ## C133 -/

/-- C133 (partial): in every frame, whatever the map has become, the point number `i` among those that could
be followed is left out exactly when the `i`-th number of the generator is below 1/10; the numbers do not
depend on the frame.  Missing: that a point which stays in the map is left out in some frame. -/
theorem C133_same_numbers_partial (visible : P → Bool) (project : P → Option Px) (hp : ∀ b, (project b).isSome = true)
    (draws : Draws) (h0 : ∀ i, 0 ≤ draws i) (w : World P) (ha : (w.maps .point).active = true)
    (hd : ((w.maps .point).localMap.map (·.2.id)).Nodup) (i : Nat) (f : Feat P)
    (hf : (followable visible (w.maps .point))[i]? = some f) :
    ∃ l, w.trackedFeatures visible project draws = .ok l ∧ (f.id ∉ l.map (·.1) ↔ draws i < 1 / 10) := by
  refine ⟨_, C132_followed_points visible project draws h0 w ha, ?_⟩
  have hnd : ((followable visible (w.maps .point)).map (·.id)).Nodup := by
    refine List.Nodup.sublist ?_ hd
    have h2 := (List.filter_sublist (p := fun f : Feat P => decide (f.matched ≠ []) && visible f.body)
      (l := (w.maps .point).localMap.map (·.2))).map (·.id)
    rwa [List.map_map] at h2
  have hiff : f.id ∈ (((sampled draws (followable visible (w.maps .point))).filterMap fun f =>
      (project f.body).map fun px => (f.id, px)).map (·.1)) ↔ 1 / 10 ≤ draws i := by
    simp only [List.mem_map, List.mem_filterMap, sampled, List.mem_filter, decide_eq_true_eq]
    constructor
    · rintro ⟨x, ⟨g, ⟨⟨g', j⟩, ⟨hg, hj⟩, rfl⟩, hx⟩, hxf⟩
      cases hpb : project g'.body with
      | none => rw [hpb] at hx; cases hx
      | some px =>
        rw [hpb] at hx
        simp only [Option.map_some, Option.some.injEq] at hx
        have hgid : g'.id = f.id := by rw [← hxf, ← hx]
        rw [List.mem_zipIdx_iff_getElem?] at hg
        have h1 : ((followable visible (w.maps .point)).map (·.id))[j]? = some f.id := by
          rw [List.getElem?_map, hg]; simp [hgid]
        have h2 : ((followable visible (w.maps .point)).map (·.id))[i]? = some f.id := by
          rw [List.getElem?_map, hf]; rfl
        have hji : j = i := by
          obtain ⟨a1, b1⟩ := List.getElem?_eq_some_iff.1 h1
          obtain ⟨a2, b2⟩ := List.getElem?_eq_some_iff.1 h2
          exact (List.Nodup.getElem_inj_iff hnd).1 (b1.trans b2.symm)
        rw [← hji]; exact hj
    · intro h
      cases hpb : project f.body with
      | none => have := hp f.body; rw [hpb] at this; cases this
      | some px =>
        refine ⟨(f.id, px), ⟨f, ⟨(f, i), ⟨?_, h⟩, rfl⟩, by rw [hpb]; rfl⟩, rfl⟩
        rw [List.mem_zipIdx_iff_getElem?]
        exact hf
  rw [hiff]
  exact not_le

/-- A map with one point, matched. -/
def onePointWorld : World Unit where
  maps t := if t = .point then ⟨true, [(1, ⟨1, 0, 3, [0], ()⟩)], [], [true]⟩ else FMap.empty
  alloc := ⟨1, 1⟩
  written _ := []

/-- C133 is false: the generator gives a small number again and again, yet a point that is matched and
visible in every frame is followed in every frame: the thread of each frame starts the generator anew, and
only its first number decides. -/
theorem C133_refreshed_false :
    ¬ ∀ (draws : Draws), (∀ i, 0 ≤ draws i ∧ draws i < 1) → (∀ n, ∃ i, n ≤ i ∧ draws i < 1 / 10) →
      ∀ (frames : Nat → World Unit), (∀ n, frames n = onePointWorld) →
        ∃ n, ∃ l, (frames n).trackedFeatures (fun _ => true) (fun _ => some ()) draws = .ok l ∧ 1 ∉ l.map (·.1) := by
  intro h
  obtain ⟨n, l, hl, hn⟩ := h (fun i => if i = 0 then 1 / 2 else 0)
    (fun i => by split <;> norm_num)
    (fun n => ⟨n + 1, Nat.le_succ n, by simp⟩) (fun _ => onePointWorld) fun _ => rfl
  have he : onePointWorld.trackedFeatures (fun _ => true) (fun _ => some ())
      (fun i => if i = 0 then (1 / 2 : Rat) else 0) = .ok [(1, ())] := by decide +kernel
  rw [he] at hl
  cases hl
  exact hn (by decide)

/-! ## Examples -/

/-- Three points of which two are matched and visible; the first of them is left out. -/
def threePointWorld : World Nat where
  maps t := if t = .point then
      ⟨true, [(4, ⟨4, 0, 3, [0], 40⟩), (5, ⟨5, 1, 3, [], 50⟩), (7, ⟨7, 0, 5, [2], 70⟩)],
        [(8, ⟨8, 0, 1, [1], 80⟩)], [true, true, true]⟩
    else FMap.empty
  alloc := ⟨8, 8⟩
  written _ := []

example : threePointWorld.trackedFeatures (fun _ => true) (fun b => some b)
    (fun i => if i = 0 then 1 / 20 else 1 / 2) = .ok [(7, 70)] := by decide +kernel

example : threePointWorld.trackedFeatures (fun _ => true) (fun b => some b) (fun _ => 1 / 2) =
    .ok [(4, 40), (7, 70)] := by decide +kernel

example : threePointWorld.trackedFeatures (fun b => b = 70) (fun b => some b) (fun _ => 1 / 2) =
    .ok [(7, 70)] := by decide +kernel

end RgbdSlam.Map
