import Verif.Model.Updates
import Verif.Props.Covariance
import Verif.Props.Geometry
import Verif.Props.Tracking
import Verif.Props.System

namespace RgbdSlam.Updates

open Geometry Covariance Points2d Matrix
open Covariance.Spec (IsCovariance IsPseudoInverse)
open Keypoints (Handler Detected Kp Pt)
open Map (depthValid PointGeo PlaneOps)

variable {Desc S : Type}

/-! ## Keypoints with a depth are inside the image -/

/-- A keypoint with a depth other than zero has no negative coordinate. -/
def Inside (k : Kp) : Prop := k.depth ≠ 0 → 0 ≤ k.pt.x ∧ 0 ≤ k.pt.y

theorem getDepth_inside {im : Keypoints.DepthImage} {p : Pt} {d : Rat}
    (h : Keypoints.getDepth im p = .ok d) : Inside ⟨p, d⟩ := by
  intro hd
  unfold Keypoints.getDepth at h
  split at h
  · rename_i hb
    simp only [Keypoints.inBorder, decide_eq_true_eq] at hb
    exact ⟨by linarith [hb.1], by linarith [hb.2.1]⟩
  · cases h; exact absurd rfl hd

theorem addDetected_inside {im : Keypoints.DepthImage} {ps : List Pt} {i : Nat} {h h' : Handler Desc}
    (h0 : ∀ k ∈ h.keypoints, Inside k) (hr : Keypoints.addDetected im i ps h = .ok h') :
    ∀ k ∈ h'.keypoints, Inside k := by
  induction ps generalizing i h with
  | nil => cases hr; exact h0
  | cons p ps ih =>
    rw [Keypoints.addDetected] at hr
    obtain ⟨d, hd, hr⟩ := Outcome.bind_eq_ok hr
    dsimp only at hr
    split at hr
    · refine ih (fun k hk => ?_) hr
      rcases List.mem_append.1 hk with hk | hk
      · exact h0 k hk
      · rw [List.mem_singleton] at hk; subst hk; exact getDepth_inside hd
    · cases hr

theorem addTracked_inside {im : Keypoints.DepthImage} {ts : List Keypoints.Tracked} {i : Nat}
    {h h' : Handler Desc} (h0 : ∀ k ∈ h.keypoints, Inside k)
    (hr : Keypoints.addTracked im i ts h = .ok h') : ∀ k ∈ h'.keypoints, Inside k := by
  induction ts generalizing i h with
  | nil => cases hr; exact h0
  | cons t ts ih =>
    rw [Keypoints.addTracked] at hr
    obtain ⟨d, hd, hr⟩ := Outcome.bind_eq_ok hr
    refine ih (fun k hk => ?_) hr
    rcases List.mem_append.1 hk with hk | hk
    · exact h0 k hk
    · rw [List.mem_singleton] at hk; subst hk; exact getDepth_inside hd

theorem set_inside {im : Keypoints.DepthImage} {detected : List Pt} {descs : List Desc}
    {tracked : List Keypoints.Tracked} {h h' : Handler Desc}
    (hr : Keypoints.set im detected descs tracked h = .ok h') : ∀ k ∈ h'.keypoints, Inside k := by
  unfold Keypoints.set at hr
  obtain ⟨h1, e1, hr⟩ := Outcome.bind_eq_ok hr
  exact addTracked_inside (addDetected_inside (fun k hk => absurd hk List.not_mem_nil) e1) hr

theorem detections_inside {h : Handler Desc} (hi : ∀ k ∈ h.keypoints, Inside k) :
    ∀ d ∈ Keypoints.detections h, Inside d.kp := by
  intro d hd
  simp only [Keypoints.detections, List.mem_map] at hd
  obtain ⟨⟨k, i⟩, hk, rfl⟩ := hd
  exact hi k (List.fst_mem_of_mem_zipIdx hk)

/-! ## Points -/

/-- A covariance used by an update is a covariance. -/
theorem worldPointCovariance_ok {c : Camera} (hp : IsCovariance c.pose) (k : Kp) :
    ∃ C, worldPointCovariance c k = .ok C ∧ IsCovariance C := by
  unfold worldPointCovariance
  obtain ⟨⟨A, hA, cA⟩, B, hB, cB⟩ := C36_screen_point (k.depth : ℝ)
  split
  · rw [hA]
    exact ⟨_, rfl, (C36_points (C36_points cA hp c.c2w c.fx c.fy c.cx c.cy _).2.2 hp c.c2w c.fx c.fy c.cx c.cy
      (screenPoint k)).2.1⟩
  · rw [hB]
    exact ⟨_, rfl, (C36_points (C36_points cB hp c.c2w c.fx c.fy c.cx c.cy _).2.2 hp c.c2w c.fx c.fy c.cx c.cy
      (screenPoint k)).2.1⟩

theorem worldPoint_ok (c : Camera) {k : Kp} (hd : depthValid k.depth = true) (hi : Inside k) :
    ∃ x, worldPoint c k = .ok x := by
  have h40 : 40 < k.depth := by
    simp only [depthValid, decide_eq_true_eq] at hd
    linarith [hd.1]
  obtain ⟨hx, hy⟩ := hi (by linarith)
  have hx' : (0 : ℝ) ≤ (k.pt.x : ℝ) := by exact_mod_cast hx
  have hy' : (0 : ℝ) ≤ (k.pt.y : ℝ) := by exact_mod_cast hy
  have hz' : (40 : ℝ) < (k.depth : ℝ) := by exact_mod_cast h40
  have hz : doubleEqual (screenPoint k 2) 0 = false := by
    have e : screenPoint k 2 = (k.depth : ℝ) := rfl
    rw [e]
    simp only [doubleEqual, decide_eq_false_iff_not, not_le, sub_zero]
    rw [abs_of_pos (by linarith)]
    have : doubleEps < 40 := by norm_num [doubleEps]
    linarith
  have e0 : screenPoint k 0 = (k.pt.x : ℝ) := rfl
  have e1 : screenPoint k 1 = (k.pt.y : ℝ) := rfl
  unfold worldPoint screenToCamera
  rw [if_neg (by rw [e0]; exact not_lt.2 hx'), if_neg (by rw [e1]; exact not_lt.2 hy'), hz]
  exact ⟨_, rfl⟩

theorem fromCartesian_ok (point origin : V3) :
    ∃ p, InverseDepth.fromCartesian point origin = .ok p ∧ p.first = origin ∧
      (p.inverseDepth = 0 → p.infinite = true) := by
  set v := point - origin with hv
  have hn : 0 ≤ 1 / Geometry.norm v := one_div_nonneg.2 (norm_nonneg' v)
  have hth := atan2_nonneg (x := v 2) (Real.sqrt_nonneg (v 0 * v 0 + v 1 * v 1))
  have hth' := atan2_le_pi (v 2) (Real.sqrt (v 0 * v 0 + v 1 * v 1))
  have hph := neg_pi_lt_atan2 (v 0) (v 1)
  have hph' := atan2_le_pi (v 0) (v 1)
  refine ⟨_, by
    simp only [InverseDepth.fromCartesian, InverseDepth.make, ← hv, Spherical.ofCartesian]
    rw [if_neg (not_lt.2 hn), if_neg (by
      rintro (h1 | h1)
      · exact absurd hth (not_le.2 h1)
      · exact absurd hth' (not_le.2 h1)), if_neg (by
      rintro (h1 | h1)
      · exact absurd hph.le (not_le.2 h1)
      · exact absurd hph' (not_le.2 h1))]
    rfl, rfl, ?_⟩
  simp

theorem ofScreen_ok (K : M3) (s : V2) (c2w : M4) :
    ∃ p, InverseDepth.ofScreen K s c2w = .ok p ∧ p.inverseDepth = 1 / 1000 / 2 := by
  unfold InverseDepth.ofScreen InverseDepth.ofCamera
  obtain ⟨p, hp, -⟩ := fromCartesian_ok
    (pointToWorld c2w ![screenToCamera2 K s 0, screenToCamera2 K s 1, 1]) (translation c2w)
  dsimp only
  rw [hp]
  exact ⟨_, rfl, rfl⟩

theorem toWorld_ok {p : InverseDepth} (h : p.inverseDepth = 0 → p.infinite = true) : ∃ x, p.toWorld = .ok x := by
  unfold InverseDepth.toWorld
  split
  · rename_i h0
    rw [h h0]
    exact ⟨_, rfl⟩
  · exact ⟨_, rfl⟩

theorem newInverse_ok {c : Camera} (hp : IsCovariance c.pose) (s : V2) (desc : Option Desc) :
    ∃ b, newInverse c s desc = .ok b ∧ IsCovariance b.tracked.covariance ∧ b.desc = desc ∧
      b.tracked.coordinates.inverseDepth = 1 / 1000 / 2 := by
  obtain ⟨p, hpe, hinv⟩ := ofScreen_ok c.K s c.c2w
  have hC := initialInverseCovariance_isCovariance hp (v := (1 / 1000 / 4) ^ 2)
    (a := (1 / 2 * (Real.pi / 180)) ^ 2) (by positivity) (by positivity)
  unfold newInverse
  rw [hpe]
  simp only [Outcome.bind, hp.valid, hC.valid]
  exact ⟨_, rfl, hC, rfl, hinv⟩

theorem observe_ok {c : Camera} (hp : IsCovariance c.pose) (s : V2) :
    ∃ x C, observe c s = .ok (x, C) ∧ IsCovariance C := by
  obtain ⟨b, hb, cb, -, hinv⟩ := newInverse_ok (Desc := Unit) hp s none
  obtain ⟨x, hx⟩ := toWorld_ok (p := b.tracked.coordinates) (fun h => by rw [hinv] at h; norm_num at h)
  unfold observe
  rw [hb]
  simp only [Outcome.bind, hx, cartesianCovariance_ok cb, Outcome.map]
  exact ⟨_, _, rfl, cb.propagate' _⟩

/-- A 3D point of the map: its covariance is one, it has a descriptor. -/
def GoodPoint (b : PointBody Desc) : Prop := IsCovariance b.tracked.covariance ∧ b.desc.isSome = true

/-- A 2D point of the map: also, its inverse depth is zero only as the result of a division by infinity. -/
def GoodInverse (b : InverseBody Desc) : Prop :=
  IsCovariance b.tracked.covariance ∧ b.desc.isSome = true ∧
    (b.tracked.coordinates.inverseDepth = 0 → b.tracked.coordinates.infinite = true)

theorem newest_isSome (detected : Option Desc) {old : Option Desc} (h : old.isSome = true) :
    (newest detected old).isSome = true := by
  cases detected with
  | none => exact h
  | some d => rfl

theorem PointBody.merge_ok {b : PointBody Desc} (hb : GoodPoint b) {pinv : Sq 3 → Sq 3}
    (hpinv : ∀ A, IsCovariance A → IsPseudoInverse A (pinv A)) (x : V3) {C : Sq 3} (hC : IsCovariance C)
    (desc : Option Desc) :
    ∃ b', b.merge pinv x C desc = .ok (b', true) ∧ GoodPoint b' ∧ b'.desc = newest desc b.desc := by
  obtain ⟨score, q, e, hs, hq⟩ := C55_point_succeeds b.tracked hb.1 pinv hpinv x hC
  unfold PointBody.merge
  rw [e]
  refine ⟨⟨q, newest desc b.desc⟩, ?_, ⟨hq, newest_isSome _ hb.2⟩, rfl⟩
  simp only [Outcome.noexcept, Outcome.map, Outcome.bind]
  split
  · rename_i h; exact absurd hs (not_le.2 h)
  · rfl

theorem store_ok (p : TrackedInverse) (hp : IsCovariance p.covariance) (world point : V3) (C : Sq 3) (x : V3)
    {newC : Sq 3} (hN : IsCovariance newC) :
    ∃ r q, p.store world point C x newC = .ok (r, q) ∧ IsCovariance q.covariance ∧
      (q.coordinates.inverseDepth = 0 → q.coordinates.infinite = true) := by
  obtain ⟨co, hco, -, hinf⟩ := fromCartesian_ok x p.coordinates.first
  unfold TrackedInverse.store
  dsimp only
  rw [hco]
  simp only [Outcome.bind]
  cases hJ : inverseJacobian x p.coordinates.first with
  | none =>
    simp only [inverseCovariance, hN.valid, (firstPoseBlock_isCovariance hp).valid]
    exact ⟨_, _, rfl, hp, hinf⟩
  | some J =>
    obtain ⟨K, hK, cK, -⟩ := inverseCovariance_some hN (firstPoseBlock_isCovariance hp) hJ
    rw [hK]
    exact ⟨_, _, rfl, cK, hinf⟩

theorem InverseBody.merge_ok {b : InverseBody Desc} (hb : GoodInverse b) (pinv : Sq 3 → Sq 3) (x : V3)
    {C : Sq 3} (hC : IsCovariance C) (desc : Option Desc) :
    ∃ b' r, b.merge pinv x C desc = .ok (b', r) ∧ GoodInverse b' ∧
      b'.desc = if r then newest desc b.desc else b.desc := by
  have key : ∃ r q, b.tracked.updateWithCartesian pinv x C = .ok (r, q) ∧ IsCovariance q.covariance ∧
      (q.coordinates.inverseDepth = 0 → q.coordinates.infinite = true) := by
    obtain ⟨w, hw⟩ := toWorld_ok hb.2.2
    unfold TrackedInverse.updateWithCartesian
    rw [hC.valid, hb.1.valid, hw, cartesianCovariance_ok hb.1]
    simp only [Bool.not_true, Bool.false_eq_true, if_false, Outcome.bind]
    split
    · rename_i x' newC he
      have hN := newState_covariance he
      rw [if_pos hN.valid]
      exact store_ok _ hb.1 _ _ _ _ hN
    · exact ⟨_, _, rfl, hb.1, hb.2.2⟩
  obtain ⟨r, q, e, h1, h2⟩ := key
  unfold InverseBody.merge
  rw [e]
  refine ⟨_, r, rfl, ⟨h1, ?_, h2⟩, rfl⟩
  cases r
  · exact hb.2.1
  · exact newest_isSome _ hb.2.1

theorem computeUpgraded_ok {p : InverseDepth} {C : Sq 6} (hC : IsCovariance C)
    (hi : p.inverseDepth = 0 → p.infinite = true) (c2w : M4) :
    ∃ r, computeUpgraded p C c2w = .ok r ∧ ∀ x K, r = some (x, K) → IsCovariance K := by
  obtain ⟨w, hw⟩ := toWorld_ok hi
  unfold computeUpgraded linearityScore
  simp only [hw, Outcome.bind, cartesianCovariance_ok hC]
  by_cases h1 : w - translation c2w = 0 ∨ C 3 3 < 0
  · rw [if_pos h1]
    exact ⟨_, rfl, fun x K h => by cases h⟩
  · rw [if_neg h1]
    dsimp only
    split
    · refine ⟨_, rfl, fun x K h => ?_⟩
      cases h
      exact hC.propagate' _
    · exact ⟨_, rfl, fun x K h => by cases h⟩

end RgbdSlam.Updates
