import Verif.Model.PlaneCovariance
import Verif.Lemmas.PlaneSegment
import Verif.Lemmas.Covariance
import Mathlib.LinearAlgebra.Matrix.SchurComplement
import Mathlib.Tactic.NormNum

/-
C166: the planes found in a frame have a valid covariance.
-/
namespace RgbdSlam.PlaneSegment

open RgbdSlam Spec Matrix

/-- The point as a vector. -/
def Pt.vec (p : Pt ℝ) : Fin 3 → ℝ := ![p.x, p.y, p.z]

/-- Sum of the squared scalar products of `v` with the points: how far the points are from the plane through the camera
with normal `v`. -/
def seenAlong (pts : List (Pt ℝ)) (v : Fin 3 → ℝ) : ℝ := (pts.map fun p => (v ⬝ᵥ p.vec) ^ 2).sum

theorem toMatrix_symm (m : Sym3 ℝ) : m.toMatrixᵀ = m.toMatrix := by
  ext i j
  fin_cases i <;> fin_cases j <;> rfl

theorem toMatrix_det (m : Sym3 ℝ) : m.toMatrix.det = m.det := by
  rw [Matrix.det_fin_three]
  simp [Sym3.toMatrix, Sym3.det]
  ring

theorem toMatrix_quad (m : Sym3 ℝ) (v : Fin 3 → ℝ) :
    v ⬝ᵥ (m.toMatrix *ᵥ v) = (Pt.dot ⟨v 0, v 1, v 2⟩ (m.mul ⟨v 0, v 1, v 2⟩)) := by
  simp [Sym3.toMatrix, Pt.dot, Sym3.mul, Matrix.mulVec, dotProduct, Fin.sum_univ_three]

theorem hessian_quad {s : Stats ℝ} {pts : List (Pt ℝ)} (h : HasStats s pts) (v : Fin 3 → ℝ) :
    v ⬝ᵥ (s.hessian.toMatrix *ᵥ v) = seenAlong pts v := by
  rw [toMatrix_quad]
  simp only [Stats.hessian, h.sxs, h.sys, h.szs, h.sxy, h.szx, h.syz]
  clear h
  induction pts with
  | nil => simp [Pt.dot, Sym3.mul, seenAlong, total]
  | cons p ps ih =>
    have : seenAlong (p :: ps) v = (v ⬝ᵥ p.vec) ^ 2 + seenAlong ps v := by simp [seenAlong]
    rw [this, ← ih]
    simp only [total_cons, Pt.dot, Sym3.mul, Pt.vec, dotProduct, Fin.sum_univ_three]
    simp
    ring

/-- The spread around the mean is positive semi-definite. -/
theorem covariance_psd {s : Stats ℝ} {pts : List (Pt ℝ)} (h : HasStats s pts) (hne : pts ≠ []) :
    s.covariance.toMatrix.PosSemidef := by
  rw [← Covariance.isCovariance_iff]
  refine Covariance.isCovariance_of (toMatrix_symm _) fun v => ?_
  rw [toMatrix_quad, quad_spread h hne]
  exact spread_nonneg _ _

/-- The sum of the squares is the spread plus that of the mean. -/
theorem hessian_eq {s : Stats ℝ} {pts : List (Pt ℝ)} (h : HasStats s pts) (hne : pts ≠ []) :
    s.hessian.toMatrix = s.covariance.toMatrix +
      Matrix.replicateCol Unit ((Real.sqrt pts.length) • (mean pts).vec) *
        Matrix.replicateRow Unit ((Real.sqrt pts.length) • (mean pts).vec) := by
  have hn : (pts.length : ℝ) ≠ 0 := len_ne_zero hne
  have hs : Real.sqrt pts.length * Real.sqrt pts.length = pts.length := Real.mul_self_sqrt (Nat.cast_nonneg _)
  have key : ∀ f g : Pt ℝ → ℝ, total (fun p => f p * g p) pts =
      total (fun p => (f p - total f pts / pts.length) * (g p - total g pts / pts.length)) pts +
        Real.sqrt pts.length * (total f pts / pts.length) * (Real.sqrt pts.length * (total g pts / pts.length)) := by
    intro f g
    rw [huygens f g pts hn]
    generalize total (fun p => f p * g p) pts = t
    generalize total f pts = a
    generalize total g pts = b
    generalize (pts.length : ℝ) = n at hn hs ⊢
    generalize Real.sqrt n = r at hs ⊢
    have e : r * (a / n) * (r * (b / n)) = n * (a / n) * (b / n) := by
      rw [← hs]
      ring
    rw [e, mul_div_cancel₀ _ hn]
    ring
  have hk : s.hessian = (⟨s.covariance.xx + √pts.length * (mean pts).x * (√pts.length * (mean pts).x),
      s.covariance.yy + √pts.length * (mean pts).y * (√pts.length * (mean pts).y),
      s.covariance.zz + √pts.length * (mean pts).z * (√pts.length * (mean pts).z),
      s.covariance.xy + √pts.length * (mean pts).x * (√pts.length * (mean pts).y),
      s.covariance.xz + √pts.length * (mean pts).x * (√pts.length * (mean pts).z),
      s.covariance.yz + √pts.length * (mean pts).y * (√pts.length * (mean pts).z)⟩ : Sym3 ℝ) := by
    rw [covariance_eq h hne]
    ext
    · exact h.sxs.trans (key (fun p => p.x) (fun p => p.x))
    · exact h.sys.trans (key (fun p => p.y) (fun p => p.y))
    · exact h.szs.trans (key (fun p => p.z) (fun p => p.z))
    · exact h.sxy.trans (key (fun p => p.x) (fun p => p.y))
    · exact h.szx.trans (key (fun p => p.x) (fun p => p.z))
    · exact h.syz.trans (key (fun p => p.y) (fun p => p.z))
  rw [hk]
  generalize s.covariance = c
  generalize mean pts = m
  generalize √(pts.length : ℝ) = r
  have hv : Matrix.replicateCol Unit (r • m.vec) * Matrix.replicateRow Unit (r • m.vec) =
      Matrix.of fun i j => r * m.vec i * (r * m.vec j) := by
    ext i j
    rw [Matrix.mul_apply]
    simp only [Finset.univ_unique, Finset.sum_singleton, Matrix.replicateCol_apply, Matrix.replicateRow_apply,
      Pi.smul_apply, smul_eq_mul, Matrix.of_apply]
  rw [hv]
  ext i j
  fin_cases i <;> fin_cases j <;> simp only [Sym3.toMatrix, Pt.vec, Matrix.add_apply, Matrix.of_apply] <;>
    simp <;> ring

/-- **C166.**  A segment accepted as a plane by the fit has a covariance: building the plane does not throw, the matrix is
symmetric positive definite, its inverse is the sum of the squares of the points, and the assertion about the
determinant holds.  -/
theorem C166_covariance (solve : Sym3 ℝ → Eigen3 ℝ) (eps : ℝ) (heps : 0 ≤ eps) (s : Stats ℝ) (pts : List (Pt ℝ))
    (h : HasStats s pts) (hne : pts ≠ []) (p : Plane ℝ) (hfit : s.fit solve eps = some p) :
    ∃ C, s.planeCovariance = .ok C ∧ (∀ i j, C i j = C j i) ∧ (∀ v, v ≠ 0 → 0 < v ⬝ᵥ (C *ᵥ v)) ∧
      (∀ v, (C⁻¹ *ᵥ v) ⬝ᵥ v = seenAlong pts v) ∧ Covariance.isValid C = true ∧ s.assertionHolds eps = true := by
  have hdet : eps < |s.covariance.det| := by
    unfold Stats.fit at hfit
    dsimp only at hfit
    by_contra hd
    rw [if_pos (by rw [sub_zero]; exact not_lt.1 hd)] at hfit
    cases hfit
  have hpsd := covariance_psd h hne
  have hdet0 : s.covariance.toMatrix.det ≠ 0 := by
    rw [toMatrix_det]
    intro e
    rw [e, abs_zero] at hdet
    exact absurd hdet (not_lt.2 heps)
  have hpd : s.covariance.toMatrix.PosDef :=
    hpsd.posDef_iff_isUnit.2 ((Matrix.isUnit_iff_isUnit_det _).2 (isUnit_iff_ne_zero.2 hdet0))
  set u := (Real.sqrt pts.length) • (mean pts).vec with hu
  have hH : s.hessian.toMatrix.PosDef := by
    rw [hessian_eq h hne]
    refine hpd.add_posSemidef ?_
    have e : Matrix.replicateRow Unit u = (Matrix.replicateCol Unit u)ᴴ := by
      ext i j
      simp
    rw [← hu, e]
    exact Matrix.posSemidef_self_mul_conjTranspose _
  have hinv := hH.inv
  have hC : Covariance.isValid s.hessian.toMatrix⁻¹ = true :=
    (Covariance.isCovariance_iff.2 hinv.posSemidef).valid
  have hdetH : s.hessian.toMatrix.det ≠ 0 := hH.det_pos.ne'
  refine ⟨s.hessian.toMatrix⁻¹, ?_, ?_, ?_, ?_, hC, ?_⟩
  · simp only [Stats.planeCovariance]
    rw [if_neg hdetH, if_pos hC]
  · exact (Covariance.isCovariance_iff.2 hinv.posSemidef).symm
  · intro v hv
    have := hinv.dotProduct_mulVec_pos hv
    rwa [show star v = v from by ext i; simp] at this
  · intro v
    rw [Matrix.nonsing_inv_nonsing_inv _ (isUnit_iff_ne_zero.2 hdetH), dotProduct_comm, hessian_quad h]
  · have hge : s.covariance.toMatrix.det ≤ s.hessian.toMatrix.det := by
      rw [hessian_eq h hne, ← hu, Matrix.det_add_replicateCol_mul_replicateRow (isUnit_iff_ne_zero.2 hdet0)]
      have h1 : 0 ≤ u ⬝ᵥ (s.covariance.toMatrix⁻¹ *ᵥ u) := by
        have := hpd.inv.posSemidef.dotProduct_mulVec_nonneg u
        rwa [show star u = u from by ext i; simp] at this
      have h2 : (1 + Matrix.replicateRow Unit u * s.covariance.toMatrix⁻¹ * Matrix.replicateCol Unit u).det =
          1 + u ⬝ᵥ (s.covariance.toMatrix⁻¹ *ᵥ u) := by
        rw [Matrix.det_unique, Matrix.mul_assoc]
        simp [Matrix.mul_apply, dotProduct, Matrix.mulVec]
      rw [h2]
      nlinarith [hpd.det_pos]
    have hpos : 0 < s.covariance.det := by rw [← toMatrix_det]; exact hpd.det_pos
    rw [abs_of_pos hpos] at hdet
    rw [toMatrix_det, toMatrix_det] at hge
    simp only [Stats.assertionHolds, decide_eq_true_eq, sub_zero, not_le]
    exact lt_of_lt_of_le hdet (hge.trans (le_abs_self _))

/-- **C166.**  Adding a plane to the result never ends the program.  -/
theorem C166_added {Boundary : Type} (solve : Sym3 ℝ → Eigen3 ℝ) (eps : ℝ) (heps : 0 ≤ eps) (s : Stats ℝ)
    (pts : List (Pt ℝ)) (h : HasStats s pts) (hne : pts ≠ []) (p : Plane ℝ) (hfit : s.fit solve eps = some p)
    (b : Boundary) (planes : List (Plane ℝ × Covariance.Sq 3 × Boundary)) :
    ∃ C, Covariance.isValid C = true ∧ addPlane s p b planes = .ok (planes ++ [(p, C, b)]) := by
  obtain ⟨C, e, _, _, _, hv, _⟩ := C166_covariance solve eps heps s pts h hne p hfit
  refine ⟨C, hv, ?_⟩
  rw [addPlane, e]
  rfl

/-- Four points that are not in a plane. -/
def demoCloud : List (Pt ℝ) := [⟨0, 0, 1⟩, ⟨1, 0, 1⟩, ⟨0, 1, 1⟩, ⟨0, 0, 2⟩]

/-- They are accepted by the fit, for any eigenvalue solver. -/
example (solve : Sym3 ℝ → Eigen3 ℝ) : HasStats (Stats.ofCell demoCloud) demoCloud ∧
    ∃ p, (Stats.ofCell demoCloud).fit solve (1 / 10 ^ 12) = some p := by
  have hm : measured demoCloud = demoCloud := by
    simp [measured, demoCloud]
  have h := ofCell_stats demoCloud
  rw [hm] at h
  refine ⟨h, ?_⟩
  have hd : (Stats.ofCell demoCloud).covariance.det = 1 / 4 := by
    rw [covariance_eq h (by simp [demoCloud])]
    simp [demoCloud, mean, total, Sym3.det]
    norm_num
  unfold Stats.fit
  dsimp only
  rw [hd, if_neg (by rw [abs_of_pos] <;> norm_num)]
  exact ⟨_, rfl⟩

end RgbdSlam.PlaneSegment
