import Verif.Props.StillDepth
/-
C191: a 3D map point that is seen without depth.
-/
namespace RgbdSlam.Updates

open Geometry Covariance Covariance.Spec Points2d Points2d.Spec Matrix
open Keypoints (Detected Kp)
open Map (depthValid)

variable {Desc : Type}

/-- A 3D map point, matched with these keypoints one after the other by a camera that does not move. -/
def Spec.Glanced (pinv : Sq 3 → Sq 3) (c : Camera) : PointBody Desc → List (Detected Desc) → PointBody Desc → Prop
  | b, [], b' => b = b'
  | b, d :: l, b' => ∃ a, updatePoint pinv c d b = .ok (a, true) ∧ Spec.Glanced pinv c a l b'

/-- A point that is matched with a keypoint without depth is fused with the place two metres away on the line of sight. -/
theorem updatePoint_blind {pinv : Sq 3 → Sq 3} (hpinv : ∀ S, IsCovariance S → IsPseudoInverse S (pinv S)) {c : Camera} {d : Detected Desc} (hd : depthValid d.kp.depth = false) {z : V3} {R : Sq 3} (hR : IsCovariance R)
    (ho : observe c (screenPoint2 d.kp) = .ok (z, R)) (b : PointBody Desc) (hC : IsCovariance b.tracked.covariance) :
    ∃ t x, b.tracked.track pinv z R = .ok (x, t) ∧ IsCovariance t.covariance ∧
      updatePoint pinv c d b = .ok (⟨t, newest d.desc b.desc⟩, true) := by
  obtain ⟨x', C', G, h1, h2, -⟩ := static_step (by norm_num : (0 : ℝ) ≤ 1 / 1000) pinv hpinv b.tracked.coordinates z hC hR
  have ht := track_ok pinv b.tracked z hC hR h1
  refine ⟨_, _, ht, h2, ?_⟩
  unfold updatePoint
  rw [hd, ho]
  simp only [Bool.false_eq_true, if_false, Outcome.bind, PointBody.merge, ht, Outcome.noexcept, Outcome.map]
  rw [if_neg (not_lt.2 (show 0 ≤ Geometry.norm (b.tracked.coordinates - x') from Real.sqrt_nonneg _))]

theorem glanced_seenAt {pinv : Sq 3 → Sq 3} (hpinv : ∀ S, IsCovariance S → IsPseudoInverse S (pinv S)) {c : Camera} {s : V2}
    {z : V3} {R : Sq 3} (hR : IsCovariance R) (ho : observe c s = .ok (z, R)) (ds : List (Detected Desc)) :
    ∀ (b : PointBody Desc) (p : TrackedPoint), (∀ d ∈ ds, screenPoint2 d.kp = s ∧ depthValid d.kp.depth = false) →
      IsCovariance b.tracked.covariance → b.tracked.seenAt pinv z (List.replicate ds.length R) = .ok p →
      ∃ b', Spec.Glanced pinv c b ds b' ∧ b'.tracked = p := by
  induction ds with
  | nil => exact fun b p _ _ h => ⟨b, rfl, Outcome.ok.inj h⟩
  | cons d ds ih =>
    intro b p hd hC h
    obtain ⟨hd1, hd2⟩ := hd d (by simp)
    obtain ⟨t, x, h1, h2, h3⟩ := updatePoint_blind hpinv hd2 hR (by rw [hd1]; exact ho) b hC
    rw [List.length_cons, List.replicate_succ, TrackedPoint.seenAt, h1, Outcome.bind_ok] at h
    obtain ⟨b', h4, h5⟩ := ih ⟨t, newest d.desc b.desc⟩ p (fun e he => hd e (List.mem_cons_of_mem _ he)) h2 h
    exact ⟨b', ⟨_, h3, h4⟩, h5⟩

/-- The only unit vector of a half line. -/
theorem unit_unique {u v w : V3} (hu : u ⬝ᵥ u = 1) (hv : v ⬝ᵥ v = 1) {s t : ℝ} (hs : 0 < s) (ht : 0 < t) (h1 : w = s • u)
    (h2 : w = t • v) : u = v := by
  have h : s ^ 2 = t ^ 2 := by
    have e1 : w ⬝ᵥ w = s ^ 2 := by rw [h1, smul_dotProduct, dotProduct_smul, hu]; simp [sq]
    have e2 : w ⬝ᵥ w = t ^ 2 := by rw [h2, smul_dotProduct, dotProduct_smul, hv]; simp [sq]
    rw [← e1, e2]
  have hst : s = t := by nlinarith
  rw [h1, hst] at h2
  exact smul_right_injective V3 ht.ne' h2

/-- C191 (partial: the distance may change, by at most this much with one keypoint): a 3D map point at the distance `r` of the
camera, on the line of sight of a keypoint without depth it is matched with, is moved along this line by at most `|2000 - r|` times a
thousandth of its standard deviation in millimetres in this direction (the noise of the process included). -/
theorem C191_distance_kept_partial {pinv : Sq 3 → Sq 3} (hpinv : ∀ S, IsCovariance S → IsPseudoInverse S (pinv S)) {c : Camera}
    (hp : IsCovariance c.pose) (hfx : c.fx ≠ 0) (hfy : c.fy ≠ 0) {d : Detected Desc} (hd : depthValid d.kp.depth = false)
    {b : PointBody Desc} (hC : IsCovariance b.tracked.covariance) {u : V3} {r t : ℝ} (hu : u 0 ^ 2 + u 1 ^ 2 + u 2 ^ 2 = 1)
    (ht : 0 < t) (hs : ∀ i, Spec.sightPoint c (screenPoint2 d.kp) i - translation c.c2w i = t * u i)
    (hx : ∀ i, b.tracked.coordinates i - translation c.c2w i = r * u i) :
    ∃ b', updatePoint pinv c d b = .ok (b', true) ∧
      |∑ i, u i * (b'.tracked.coordinates i - b.tracked.coordinates i)| ≤
        |2000 - r| * (Real.sqrt (variance b.tracked.covariance u + 1 / 1000) / 1000) := by
  have hu' : u ⬝ᵥ u = 1 := by rw [← hu]; simp only [dotProduct, Fin.sum_univ_three, sq]
  have hsv : Spec.sightPoint c (screenPoint2 d.kp) - translation c.c2w = t • u := by ext i; exact hs i
  have hne : Spec.sightPoint c (screenPoint2 d.kp) ≠ translation c.c2w := fun h => by
    rw [h, sub_self] at hsv
    have := congrArg (· ⬝ᵥ u) hsv
    simp only [zero_dotProduct, smul_dotProduct, hu', smul_eq_mul, mul_one] at this
    exact ht.ne this
  obtain ⟨v, hv, -, ⟨t', ht', hray⟩, -, N, -, cN, hlow, -, hobs, -⟩ := newInverse_blind hp hfx hfy (screenPoint2 d.kp) hne
  obtain rfl : u = v := unit_unique hu' hv ht ht' hsv (by rw [hray, add_sub_cancel_left])
  set o := translation c.c2w
  set z : V3 := o + (2000 : ℝ) • u with hz
  have cR : IsCovariance (N + c.pose) := cN.add hp
  obtain ⟨x', C', G, h1, -, -, h3, -, h4, -⟩ := static_step (by norm_num : (0 : ℝ) ≤ 1 / 1000) pinv hpinv b.tracked.coordinates z hC cR
  obtain ⟨x2, C2, G', h1', -, -, -, -, -, h7⟩ := C35_update (staticFilter 3 (1 / 1000)) pinv b.tracked.coordinates z hC cR
    (isCovariance_smul_one (by norm_num)) hpinv
  rw [h1] at h1'
  obtain ⟨-, rfl⟩ := Prod.mk.inj (Outcome.ok.inj h1')
  obtain ⟨tr, n, g1, -, g3⟩ := updatePoint_blind hpinv hd cR hobs b hC
  rw [track_ok pinv b.tracked z hC cR h1] at g1
  obtain ⟨-, rfl⟩ := Prod.mk.inj (Outcome.ok.inj g1)
  refine ⟨_, g3, ?_⟩
  have hzx : z - b.tracked.coordinates = (2000 - r) • u := by
    ext i
    have := hx i
    simp only [hz, Pi.sub_apply, Pi.add_apply, Pi.smul_apply, smul_eq_mul]
    linarith
  have hdisp : ∑ i, u i * (x' i - b.tracked.coordinates i) = (2000 - r) * (u ⬝ᵥ (G *ᵥ u)) := by
    rw [h3, hzx, mulVec_smul]
    simp only [Pi.add_apply, Pi.smul_apply, smul_eq_mul, add_sub_cancel_left, dotProduct, Finset.mul_sum]
    exact Finset.sum_congr rfl fun i _ => by ring
  show |∑ i, u i * (x' i - b.tracked.coordinates i)| ≤ _
  rw [hdisp, abs_mul]
  refine mul_le_mul_of_nonneg_left ?_ (abs_nonneg _)
  have e1 : 10 ^ 6 * (u ⬝ᵥ (G *ᵥ u)) ^ 2 ≤ variance C' u := by
    have a1 := hlow (Gᵀ *ᵥ u)
    have a2 := hp.nonneg (Gᵀ *ᵥ u)
    have a3 := (hC.add (isCovariance_smul_one (by norm_num : (0 : ℝ) ≤ 1 / 1000))).nonneg ((1 - G)ᵀ *ᵥ u)
    have e : u ⬝ᵥ (Gᵀ *ᵥ u) = u ⬝ᵥ (G *ᵥ u) := by rw [mulVec_transpose, dotProduct_comm, ← dotProduct_mulVec]
    rw [e] at a1
    rw [h4, variance_add ((1 - G) * (b.tracked.covariance + (1 / 1000 : ℝ) • (1 : Sq 3)) * (1 - G)ᵀ), variance_conj, variance_conj,
      variance_add N]
    linarith
  have e2 : variance C' u ≤ variance b.tracked.covariance u + 1 / 1000 := by
    have h := h7 0 u
    simp only [staticFilter, errorCovariance, Matrix.one_mul, Matrix.mul_one, transpose_one, Matrix.zero_mul, sub_zero,
      add_zero] at h
    rw [variance_add, variance_smul_one, hu', mul_one] at h
    exact h
  rw [le_div_iff₀ (by norm_num)]
  refine Real.le_sqrt_of_sq_le ?_
  rw [mul_pow, sq_abs]
  linarith

/-- C191 is false: whatever its distance and its certainty, a 3D map point that is then matched with keypoints without depth at one
pixel goes to the place of the line of sight that is two metres from the camera. -/
theorem C191_distance_kept_false {pinv : Sq 3 → Sq 3} (hpinv : ∀ S, IsCovariance S → IsPseudoInverse S (pinv S)) {c : Camera}
    (hp : IsCovariance c.pose) (hfx : c.fx ≠ 0) (hfy : c.fy ≠ 0) {s : V2} (hs : Spec.sightPoint c s ≠ translation c.c2w)
    {b : PointBody Desc} (hC : IsCovariance b.tracked.covariance) :
    ∃ z : V3, dist3 z (translation c.c2w) = 2000 ∧
      (∃ t : ℝ, 0 < t ∧ ∀ i, z i - translation c.c2w i = t * (Spec.sightPoint c s i - translation c.c2w i)) ∧
      ∀ e > 0, ∃ n, ∀ ds : List (Detected Desc), n ≤ ds.length →
        (∀ d ∈ ds, screenPoint2 d.kp = s ∧ depthValid d.kp.depth = false) →
        ∃ b', Spec.Glanced pinv c b ds b' ∧ dist3 b'.tracked.coordinates z < e := by
  obtain ⟨u, hu, -, ⟨len, hlen, hray⟩, -, N, -, cN, -, -, hobs, -⟩ := newInverse_blind hp hfx hfy s hs
  have cR : IsCovariance (N + c.pose) := cN.add hp
  refine ⟨translation c.c2w + (2000 : ℝ) • u, ?_, ⟨2000 / len, by positivity, fun i => ?_⟩, fun e he => ?_⟩
  · have hsq : u 0 ^ 2 + u 1 ^ 2 + u 2 ^ 2 = 1 := by
      rw [← hu]; simp only [dotProduct, Fin.sum_univ_three, sq]
    unfold dist3
    simp only [Pi.add_apply, Pi.smul_apply, smul_eq_mul, add_sub_cancel_left]
    rw [show (2000 * u 0) ^ 2 + (2000 * u 1) ^ 2 + (2000 * u 2) ^ 2 = 2000 ^ 2 by nlinarith]
    exact Real.sqrt_sq (by norm_num)
  · rw [hray]
    simp only [Pi.add_apply, Pi.smul_apply, smul_eq_mul, add_sub_cancel_left]
    field_simp
  · set r := (∑ i, ∑ j, |(N + c.pose) i j|) + 1 with hr
    have hr0 : 0 < r := by
      have : 0 ≤ ∑ i, ∑ j, |(N + c.pose) i j| := Finset.sum_nonneg fun i _ => Finset.sum_nonneg fun j _ => abs_nonneg _
      positivity
    have hle : NotLarger (N + c.pose) (r • (1 : Sq 3)) := fun y => by
      rw [variance_smul_one]
      have h1 := variance_bounded (N + c.pose) y
      have e1 : ∑ i, y i ^ 2 = y ⬝ᵥ y := by simp only [dotProduct, sq]
      have h0 : 0 ≤ y ⬝ᵥ y := by rw [← e1]; exact Finset.sum_nonneg fun i _ => sq_nonneg _
      rw [e1] at h1
      rw [hr, add_mul]
      linarith
    obtain ⟨n, hn⟩ := C181_limit hr0 pinv hpinv b.tracked hC (translation c.c2w + (2000 : ℝ) • u) (show 0 < e ^ 2 by positivity)
    refine ⟨n, fun ds hl hd => ?_⟩
    obtain ⟨p, h1, h2⟩ := hn (List.replicate ds.length (N + c.pose)) (by simpa using hl) fun A hA => by
      rw [(List.mem_replicate.1 hA).2]; exact ⟨cR, hle⟩
    obtain ⟨b', h3, rfl⟩ := glanced_seenAt hpinv cR hobs ds b p hd hC h1
    refine ⟨b', h3, ?_⟩
    unfold dist3
    rw [Fin.sum_univ_three] at h2
    rw [← Real.sqrt_sq he.le]
    exact Real.sqrt_lt_sqrt (by positivity) h2

/-- A point known to a millimetre, four metres in front of the camera of the example of C190, and its keypoint, without depth. -/
example : ∃ (c : Camera) (b : PointBody Unit) (d : Detected Unit) (u : V3) (t : ℝ), IsCovariance c.pose ∧ c.fx ≠ 0 ∧ c.fy ≠ 0 ∧
    IsCovariance b.tracked.covariance ∧ depthValid d.kp.depth = false ∧ u 0 ^ 2 + u 1 ^ 2 + u 2 ^ 2 = 1 ∧ 0 < t ∧
    (∀ i, Spec.sightPoint c (screenPoint2 d.kp) i - translation c.c2w i = t * u i) ∧
    (∀ i, b.tracked.coordinates i - translation c.c2w i = 4000 * u i) ∧
    Spec.sightPoint c (screenPoint2 d.kp) ≠ translation c.c2w := by
  have h : ∀ i, Spec.sightPoint exampleCamera ![320, 240] i - translation exampleCamera.c2w i = 1 * (![1, 0, 0] : V3) i := by
    intro i
    fin_cases i <;>
      simp [Spec.sightPoint, exampleCamera, pointToWorld, cameraToWorld_eq, translation, homogeneous, axesRotation, transformation,
        Quat.toRotationMatrix, mulVec, dotProduct, Fin.sum_univ_three]
  have hpx : screenPoint2 (⟨⟨⟨320, 240⟩, 0⟩, none⟩ : Detected Unit).kp = ![320, 240] := by norm_num [screenPoint2]
  refine ⟨exampleCamera, ⟨⟨translation exampleCamera.c2w + (4000 : ℝ) • ![1, 0, 0], 1, false⟩, none⟩, ⟨⟨⟨320, 240⟩, 0⟩, none⟩, ![1, 0, 0], 1,
    isCovariance_one, by simp [exampleCamera], by simp [exampleCamera], isCovariance_one,
    (by decide +kernel : depthValid 0 = false), by simp, one_pos, ?_, fun i => ?_, ?_⟩
  · rw [hpx]; exact h
  · fin_cases i <;> simp
  · rw [hpx]
    intro e
    have := h 0
    rw [e] at this
    simp at this

end RgbdSlam.Updates
