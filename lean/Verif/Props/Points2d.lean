import Verif.Lemmas.Points2d
import Verif.Lemmas.Covariance
import Verif.Lemmas.Geometry2
/-
Properties of the points without depth.

C118: visibility; C119: clamping to the screen; C120: promotion to a 3D point; C121: random variations of the
matched features.
-/
namespace RgbdSlam.Points2d

open Geometry Spec Matrix Covariance Covariance.Spec

/-! ### C118 -/

theorem inScreen2_iff {width height : ℕ} {p : V2} : inScreen2 width height p = true ↔ InImage width height p := by
  simp [inScreen2, InImage, and_assoc]

theorem inFrame_inImage {width height : ℕ} {p : V2} (h : InFrame width height p) : InImage width height p :=
  ⟨by linarith [h.1], by linarith [h.2.1], by linarith [h.2.2.1], by linarith [h.2.2.2]⟩

theorem onSegment_left (a b : V2) : OnSegment a b a := ⟨0, le_refl _, zero_le_one, (along_zero a b).symm⟩

theorem onSegment_right (a b : V2) : OnSegment a b b := ⟨1, zero_le_one, le_refl _, (along_one a b).symm⟩

/-- C118: if a segment is kept by the screen, one of its points is in the image. -/
theorem C118_kept_is_in_image {width height : ℕ} {a b p q : V2} {l : List V2} (h : Crossings width height a b l)
    (hc : clampToScreen (some l) width height a b = some (p, q)) :
    ∃ x, OnSegment a b x ∧ InImage width height x := by
  match l, h with
  | [], _ =>
    simp only [clampToScreen] at hc
    split_ifs at hc with h1
    simp only [Bool.or_eq_true, Bool.not_eq_true', not_or, Bool.not_eq_false] at h1
    exact ⟨a, onSegment_left a b, inScreen2_iff.1 h1.1⟩
  | x :: _, h =>
    have := (h.mem x).1 (by simp)
    exact ⟨x, this.1, inFrame_inImage this.2.1⟩

/-- Without crossing, a segment with a point in the frame has its two ends in it. -/
theorem ends_inFrame {width height : ℕ} {a b x : V2} (h : Crossings width height a b [])
    (hx : OnSegment a b x) (hf : InFrame width height x) : InFrame width height a ∧ InFrame width height b := by
  obtain ⟨t, t0, t1, rfl⟩ := hx
  rw [inFrame_iff] at hf
  have hc := continuous_margin width height a b
  constructor
  · rw [← along_zero a b, inFrame_iff]
    by_contra hn
    push Not at hn
    obtain ⟨z, z0, z1, hz⟩ := zero_left hc t0 hn hf
    exact List.not_mem_nil (h.mem_along z0 (z1.trans t1) hz)
  · rw [← along_one a b, inFrame_iff]
    by_contra hn
    push Not at hn
    obtain ⟨z, z0, z1, hz⟩ := zero_right hc t1 hn hf
    exact List.not_mem_nil (h.mem_along (t0.trans z0) z1 hz)

/-- C118: a segment with a point in the image, at a pixel of its border or more, is kept. -/
theorem C118_in_frame_is_kept {width height : ℕ} {a b x : V2} {l : List V2} (h : Crossings width height a b l)
    (hx : OnSegment a b x) (hf : InFrame width height x) :
    (clampToScreen (some l) width height a b).isSome = true := by
  have hl := h.length_le
  match l, h, hl with
  | [], h, _ =>
    obtain ⟨ha, hb⟩ := ends_inFrame h hx hf
    have ha := inScreen2_iff.2 (inFrame_inImage ha)
    have hb := inScreen2_iff.2 (inFrame_inImage hb)
    simp [clampToScreen, ha, hb]
  | [p], _, _ => simp only [clampToScreen]; split_ifs <;> rfl
  | [p, q], _, _ => rfl

/-- C118: the same for the visibility of a map point: `cross` is the intersection of a segment with the
border. -/
theorem C118_visible {cross : V2 → V2 → List V2} {width height : ℕ}
    (hcross : ∀ a b, (∃ l, Crossings width height a b l) → Crossings width height a b (cross a b))
    (K : M3) (p : InverseDepth) (variance : ℝ) (w2c : M4)
    (hfin : ∀ a b, Optimizer.inverseScreenSegment K p variance w2c = some (a, b) →
      ∃ l, Crossings width height a b l) :
    (visible2d (fun a b => some (cross a b)) K width height p variance w2c = true →
      ∃ a b x, Optimizer.inverseScreenSegment K p variance w2c = some (a, b) ∧ OnSegment a b x ∧
        InImage width height x) ∧
    (∀ a b x, Optimizer.inverseScreenSegment K p variance w2c = some (a, b) → OnSegment a b x →
      InFrame width height x → visible2d (fun a b => some (cross a b)) K width height p variance w2c = true) := by
  constructor
  · intro hv
    unfold visible2d at hv
    split at hv
    · rename_i a b e
      obtain ⟨⟨u, v⟩, huv⟩ := Option.isSome_iff_exists.1 hv
      obtain ⟨x, h1, h2⟩ := C118_kept_is_in_image (hcross a b (hfin a b e)) huv
      exact ⟨a, b, x, e, h1, h2⟩
    · cases hv
  · intro a b x e hx hf
    unfold visible2d
    rw [e]
    exact C118_in_frame_is_kept (hcross a b (hfin a b e)) hx hf

/-- A segment through an image of 10 by 10 pixels, and its crossings. -/
theorem crossings_through : Crossings 10 10 ![-5, 5] ![15, 5] [![1, 5], ![9, 5]] where
  nodup := by
    simp only [List.nodup_cons, List.mem_singleton, List.not_mem_nil, not_false_eq_true, List.nodup_nil, and_true]
    intro h
    have := congrFun h 0
    norm_num at this
  mem p := by
    simp only [List.mem_cons, List.not_mem_nil, or_false]
    constructor
    · rintro (rfl | rfl)
      · exact ⟨⟨3 / 10, by norm_num, by norm_num, by funext i; fin_cases i <;> norm_num [along]⟩,
          by norm_num [OnFrame, InFrame]⟩
      · exact ⟨⟨7 / 10, by norm_num, by norm_num, by funext i; fin_cases i <;> norm_num [along]⟩,
          by norm_num [OnFrame, InFrame]⟩
    · rintro ⟨⟨t, t0, t1, rfl⟩, h1, h2⟩
      simp only [along, Matrix.cons_val_zero, Matrix.cons_val_one] at h2 ⊢
      norm_num at h2
      rcases h2 with h2 | h2
      · left
        funext i; fin_cases i <;> simp; linarith
      · right
        funext i; fin_cases i <;> simp; linarith

example : ∃ x, OnSegment ![-5, 5] ![15, 5] x ∧ InFrame 10 10 x :=
  ⟨![1, 5], ((crossings_through.mem _).1 (by simp)).1, by norm_num [InFrame]⟩

/-! ### C119 -/

/-- The part in the frame of a segment whose ends are out of it. -/
theorem visible_part {width height : ℕ} {a b : V2} {l : List V2} (h : Crossings width height a b l)
    (ha : ¬InFrame width height a) (hb : ¬InFrame width height b) {x : V2} (hx : OnSegment a b x)
    (hf : InFrame width height x) :
    ∃ p q, clampToScreen (some l) width height a b = some (p, q) ∧
      ∀ y, OnSegment p q y ↔ OnSegment a b y ∧ InFrame width height y := by
  have hc := continuous_margin width height a b
  have hg := conc_margin width height a b
  have g0 : margin width height a b 0 < 0 := by
    by_contra hn; rw [not_lt, ← inFrame_iff, along_zero] at hn; exact ha hn
  have g1 : margin width height a b 1 < 0 := by
    by_contra hn; rw [not_lt, ← inFrame_iff, along_one] at hn; exact hb hn
  have hl := h.length_le
  match l, h, hl with
  | [], h, _ => exact absurd (ends_inFrame h hx hf).1 ha
  | [p], h, _ =>
    refine ⟨p, p, by simp only [clampToScreen]; split_ifs <;> rfl, fun y => ?_⟩
    have e : OnSegment p p y ↔ y = p := by
      have : ∀ t, along p p t = p := fun t => by funext i; fin_cases i <;> simp [along]
      constructor
      · rintro ⟨t, -, -, rfl⟩; exact this t
      · rintro rfl; exact onSegment_left _ _
    rw [e]
    constructor
    · rintro rfl
      have := (h.mem y).1 (by simp)
      exact ⟨this.1, this.2.1⟩
    · rintro ⟨⟨t, t0, t1, rfl⟩, h2⟩
      rw [inFrame_iff] at h2
      obtain ⟨u, u0, u1, zu⟩ := zero_left hc t0 g0 h2
      obtain ⟨v, v0, v1, zv⟩ := zero_right hc t1 g1 h2
      have e1 := List.mem_singleton.1 (h.mem_along u0 (u1.trans t1) zu)
      have e2 := List.mem_singleton.1 (h.mem_along (t0.trans v0) v1 zv)
      by_cases hab : a = b
      · rw [← e1]; subst hab; funext i; fin_cases i <;> simp [along]
      · have := along_inj hab (e1.trans e2.symm)
        rw [← e1, show u = t by linarith]
  | [p, q], h, _ =>
    refine ⟨p, q, rfl, fun y => ?_⟩
    obtain ⟨s, s0, s1, rfl, zs⟩ := h.of_mem (p := p) (by simp)
    obtain ⟨t, t0, t1, rfl, zt⟩ := h.of_mem (p := q) (by simp)
    have hab : a ≠ b := by
      rintro rfl
      have hn := h.nodup
      simp only [List.nodup_cons, List.mem_singleton] at hn
      exact hn.1 (by funext i; fin_cases i <;> simp [along])
    have comb : ∀ r, along (along a b s) (along a b t) r = along a b (s + r * (t - s)) := by
      intro r; funext i; fin_cases i <;> simp [along] <;> ring
    have only : ∀ u, 0 ≤ u → u ≤ 1 → margin width height a b u = 0 → u = s ∨ u = t := by
      intro u u0 u1 zu
      have := h.mem_along u0 u1 zu
      simp only [List.mem_cons, List.not_mem_nil, or_false] at this
      exact this.imp (fun e => along_inj hab e) (fun e => along_inj hab e)
    constructor
    · rintro ⟨r, r0, r1, rfl⟩
      rw [comb]
      have hm : 0 ≤ s + r * (t - s) ∧ s + r * (t - s) ≤ 1 := by
        constructor
        · nlinarith
        · nlinarith
      refine ⟨⟨_, hm.1, hm.2, rfl⟩, inFrame_iff.2 ?_⟩
      have := hg s t r r0 r1
      rw [zs, zt] at this
      rw [show s + r * (t - s) = (1 - r) * s + r * t by ring]
      linarith
    · rintro ⟨⟨v, v0, v1, rfl⟩, h2⟩
      rw [inFrame_iff] at h2
      obtain ⟨u, u0, u1, zu⟩ := zero_left hc v0 g0 h2
      obtain ⟨w, w0, w1, zw⟩ := zero_right hc v1 g1 h2
      have hu := only u u0 (u1.trans v1) zu
      have hw := only w (v0.trans w0) w1 zw
      have hmem : ∃ r, 0 ≤ r ∧ r ≤ 1 ∧ v = s + r * (t - s) := by
        by_cases hst : s = t
        · exact ⟨0, le_refl _, zero_le_one, by rcases hu with h | h <;> rcases hw with h' | h' <;> linarith⟩
        · have hne : t - s ≠ 0 := sub_ne_zero.2 (Ne.symm hst)
          refine ⟨(v - s) / (t - s), ?_, ?_, by field_simp; ring⟩
          · rcases lt_or_gt_of_ne hst with h | h
            · apply div_nonneg _ (by linarith)
              rcases hu with h' | h' <;> linarith
            · apply div_nonneg_of_nonpos _ (by linarith)
              rcases hw with h' | h' <;> linarith
          · rcases lt_or_gt_of_ne hst with h | h
            · rw [div_le_one (by linarith)]
              rcases hw with h' | h' <;> linarith
            · rw [div_le_one_of_neg (by linarith)]
              rcases hu with h' | h' <;> linarith
      obtain ⟨r, r0, r1, rfl⟩ := hmem
      exact ⟨r, r0, r1, (comb r).symm⟩

/-- C119 (partial: only when the two ends are out of the frame, or when no crossing is found): the segment
that is kept is exactly the part in the frame, and a segment without crossing is kept whole, in the image. -/
theorem C119_clamped_partial {width height : ℕ} {a b : V2} {l : List V2} (h : Crossings width height a b l) :
    (¬InFrame width height a → ¬InFrame width height b → (∃ x, OnSegment a b x ∧ InFrame width height x) →
      ∃ p q, clampToScreen (some l) width height a b = some (p, q) ∧
        ∀ y, OnSegment p q y ↔ OnSegment a b y ∧ InFrame width height y) ∧
    (l = [] → ∀ p q, clampToScreen (some l) width height a b = some (p, q) → p = a ∧ q = b ∧
      ∀ y, OnSegment a b y → InImage width height y) := by
  refine ⟨fun ha hb ⟨x, hx, hf⟩ => visible_part h ha hb hx hf, ?_⟩
  rintro rfl p q hc
  simp only [clampToScreen] at hc
  split_ifs at hc with h1
  simp only [Bool.or_eq_true, Bool.not_eq_true', not_or, Bool.not_eq_false] at h1
  obtain ⟨a0, a1, a2, a3⟩ := inScreen2_iff.1 h1.1
  obtain ⟨b0, b1, b2, b3⟩ := inScreen2_iff.1 h1.2
  simp only [Option.some.injEq, Prod.mk.injEq] at hc
  refine ⟨hc.1.symm, hc.2.symm, ?_⟩
  rintro y ⟨t, t0, t1, rfl⟩
  simp only [InImage, along, Matrix.cons_val_zero, Matrix.cons_val_one]
  refine ⟨?_, ?_, ?_, ?_⟩ <;> nlinarith

example : Crossings 10 10 ![-5, 5] ![15, 5] [![1, 5], ![9, 5]] ∧ ¬InFrame 10 10 ![-5, 5] ∧
    ¬InFrame 10 10 ![15, 5] ∧ (∃ x, OnSegment ![-5, 5] ![15, 5] x ∧ InFrame 10 10 x) :=
  ⟨crossings_through, by norm_num [InFrame], by norm_num [InFrame], ![1, 5],
    ((crossings_through.mem _).1 (by simp)).1, by norm_num [InFrame]⟩

/-- C119 is false: a segment that enters the frame, from out of it to a point strictly inside, is always
reduced to the single point where it crosses the border. -/
theorem C119_half_visible_false {width height : ℕ} {a b : V2} {l : List V2} (h : Crossings width height a b l)
    (ha : InFrame width height a) (ha' : ¬OnFrame width height a) (hb : ¬InFrame width height b) :
    ∃ p, clampToScreen (some l) width height a b = some (p, p) ∧ ¬OnSegment p p a := by
  have hc := continuous_margin width height a b
  have hg := conc_margin width height a b
  have g0 : 0 < margin width height a b 0 := by
    rw [← along_zero a b, inFrame_iff] at ha
    rw [← along_zero a b, onFrame_iff] at ha'
    exact lt_of_le_of_ne ha (Ne.symm ha')
  have g1 : margin width height a b 1 < 0 := by
    by_contra hn; rw [not_lt, ← inFrame_iff, along_one] at hn; exact hb hn
  obtain ⟨z, z0, z1, hz⟩ := zero_right hc zero_le_one g1 g0.le
  have hmem := h.mem_along z0 z1 hz
  have pos : ∀ t, 0 ≤ t → margin width height a b t = 0 → 0 < t := by
    intro t t0 zt
    rcases t0.eq_or_lt with e | e
    · rw [← e] at zt; linarith
    · exact e
  have key : ∀ s t, 0 ≤ s → s < t → margin width height a b s = 0 → margin width height a b t = 0 → False := by
    intro s t s0 hst zs zt
    obtain ⟨r, r0, r1, e, hr, -⟩ := exists_coef s0 hst.le (lt_of_le_of_lt s0 hst)
    have := hg 0 t r r0 r1
    rw [← e, zs, zt] at this
    have := mul_pos (show 0 < 1 - r by linarith [hr hst]) g0
    linarith
  have huniq : ∀ p ∈ l, p = along a b z := by
    intro p hp
    obtain ⟨t, t0, t1, rfl, zt⟩ := h.of_mem hp
    rcases lt_trichotomy t z with e | e | e
    · exact (key t z t0 e zt hz).elim
    · rw [e]
    · exact (key z t z0 e hz zt).elim
  have hlist : l = [along a b z] := by
    match l, h, huniq, hmem with
    | [], _, _, hm => cases hm
    | [p], _, hu, _ => rw [hu p (by simp)]
    | p :: q :: r, h, hu, _ =>
      have hn := h.nodup
      rw [hu p (by simp), hu q (by simp)] at hn
      simp at hn
  subst hlist
  refine ⟨along a b z, by simp only [clampToScreen]; split_ifs <;> rfl, ?_⟩
  rintro ⟨t, -, -, e⟩
  have e' : along a b 0 = along a b z := by
    rw [along_zero]
    refine e.trans ?_
    funext i; fin_cases i <;> simp [along]
  have hab : a ≠ b := by rintro rfl; exact hb ha
  have := along_inj hab e'
  have := pos z z0 hz
  linarith

/-- The segment from the middle of the image to its right. -/
example : Crossings 10 10 ![5, 5] ![15, 5] [![9, 5]] ∧ InFrame 10 10 ![5, 5] ∧ ¬OnFrame 10 10 ![5, 5] ∧
    ¬InFrame 10 10 ![15, 5] := by
  refine ⟨⟨by simp, fun p => ?_⟩, by norm_num [InFrame], by norm_num [OnFrame], by norm_num [InFrame]⟩
  simp only [List.mem_singleton]
  constructor
  · rintro rfl
    exact ⟨⟨4 / 10, by norm_num, by norm_num, by funext i; fin_cases i <;> norm_num [along]⟩,
      by norm_num [OnFrame, InFrame]⟩
  · rintro ⟨⟨t, t0, t1, rfl⟩, h1, h2⟩
    simp only [along, Matrix.cons_val_zero, Matrix.cons_val_one] at h2 ⊢
    norm_num at h2
    rcases h2 with h2 | h2
    · linarith
    · funext i; fin_cases i <;> simp; linarith

/-! ### C120 -/

theorem norm_sub_eq (x c : V3) : Geometry.norm (x - c) = dist3 x c := by
  simp [Geometry.norm, dist3, dotProduct, Fin.sum_univ_three, sq]

theorem dist3_pos {x c : V3} (h : x ≠ c) : 0 < dist3 x c := by
  rw [← norm_sub_eq]; exact norm_pos (sub_ne_zero.2 h)

theorem cos_eq (u x c : V3) : u ⬝ᵥ (x - c) / Geometry.norm (x - c) = cosSight u c x := by
  rw [norm_sub_eq, cosSight]
  simp [dotProduct, Fin.sum_univ_three]

theorem variance_diag_nonneg {n : ℕ} {C : Sq n} (h : IsCovariance C) (i : Fin n) : 0 ≤ C i i := by
  have := h.nonneg (Pi.single i 1)
  rw [variance_eq] at this
  simpa using this

/-- The outcome of the promotion. -/
theorem computeUpgraded_eq {p : InverseDepth} {C : Sq 6} {c2w : M4} {x : V3} (hp : p.inverseDepth ≠ 0)
    (hC : IsCovariance C) (hx : x = fun i => p.first i + p.bearing i / p.inverseDepth)
    (hne : x ≠ translation c2w) :
    (4 * (Real.sqrt (C 3 3) / p.inverseDepth ^ 2) / dist3 x (translation c2w) *
        |cosSight p.bearing (translation c2w) x| < 1 / 10 →
      computeUpgraded p C c2w = .ok (some (x, propagate C (worldJacobian p)))) ∧
    (¬4 * (Real.sqrt (C 3 3) / p.inverseDepth ^ 2) / dist3 x (translation c2w) *
        |cosSight p.bearing (translation c2w) x| < 1 / 10 → computeUpgraded p C c2w = .ok none) := by
  have hw : p.toWorld = .ok x := by
    unfold InverseDepth.toWorld
    rw [if_neg hp, hx]
    congr 1
    funext i
    simp [div_eq_inv_mul]
  have hd := dist3_pos hne
  have hs : linearityScore p C c2w = .ok (some (4 * (Real.sqrt (C 3 3) / p.inverseDepth ^ 2) /
      dist3 x (translation c2w) * |cosSight p.bearing (translation c2w) x|)) := by
    unfold linearityScore
    rw [hw, Outcome.bind_ok]
    dsimp only
    rw [if_neg (by
      rw [not_or]; exact ⟨sub_ne_zero.2 hne, not_lt.2 (variance_diag_nonneg hC 3)⟩), cos_eq, norm_sub_eq]
    congr 3
    field_simp
  have hR := hC.propagate' (worldJacobian p)
  unfold computeUpgraded
  rw [hs, Outcome.bind_ok]
  dsimp only
  constructor
  · intro h
    rw [if_pos h, hw, Outcome.bind_ok]
    have hk : cartesianCovariance p C = .ok (propagate C (worldJacobian p)) := by
      unfold cartesianCovariance
      rw [hC.valid]
      simp [hR.valid]
    rw [hk]
  · intro h
    rw [if_neg h]

/-- C120 (partial: the uncertainty of the depth is only bounded once it is multiplied by the cosine of the
angle between the first and the present lines of sight): a point without depth is promoted exactly when that
product is less than a fortieth of the distance to the camera; the 3D point is at the estimated depth on the
first line of sight, and its covariance is that of the point without depth, propagated. -/
theorem C120_promoted_partial {p : InverseDepth} {C : Sq 6} {c2w : M4} {x : V3} (hp : 0 < p.inverseDepth)
    (hC : IsCovariance C) (hx : x = fun i => p.first i + p.bearing i / p.inverseDepth)
    (hne : x ≠ translation c2w) :
    (∀ y R, computeUpgraded p C c2w = .ok (some (y, R)) → y = x ∧ IsCovariance R ∧
      (∀ v, variance R v = variance C (fun j => ∑ i, v i * worldJacobian p i j)) ∧
      Real.sqrt (C 3 3) / p.inverseDepth ^ 2 * |cosSight p.bearing (translation c2w) x| <
        dist3 x (translation c2w) / 40) ∧
    (Real.sqrt (C 3 3) / p.inverseDepth ^ 2 * |cosSight p.bearing (translation c2w) x| <
        dist3 x (translation c2w) / 40 → ∃ R, computeUpgraded p C c2w = .ok (some (x, R))) ∧
    (¬Real.sqrt (C 3 3) / p.inverseDepth ^ 2 * |cosSight p.bearing (translation c2w) x| <
        dist3 x (translation c2w) / 40 → computeUpgraded p C c2w = .ok none) := by
  have hd := dist3_pos hne
  obtain ⟨h1, h2⟩ := computeUpgraded_eq hp.ne' hC hx hne
  have hiff : 4 * (Real.sqrt (C 3 3) / p.inverseDepth ^ 2) / dist3 x (translation c2w) *
        |cosSight p.bearing (translation c2w) x| < 1 / 10 ↔
      Real.sqrt (C 3 3) / p.inverseDepth ^ 2 * |cosSight p.bearing (translation c2w) x| <
        dist3 x (translation c2w) / 40 := by
    rw [show 4 * (Real.sqrt (C 3 3) / p.inverseDepth ^ 2) / dist3 x (translation c2w) *
        |cosSight p.bearing (translation c2w) x| = 4 * (Real.sqrt (C 3 3) / p.inverseDepth ^ 2 *
        |cosSight p.bearing (translation c2w) x|) / dist3 x (translation c2w) by ring, div_lt_iff₀ hd]
    constructor <;> intro h <;> linarith
  rw [hiff] at h1 h2
  refine ⟨?_, fun h => ⟨_, h1 h⟩, h2⟩
  intro y R hR
  by_cases h : Real.sqrt (C 3 3) / p.inverseDepth ^ 2 * |cosSight p.bearing (translation c2w) x| <
        dist3 x (translation c2w) / 40
  · rw [h1 h] at hR
    simp only [Outcome.ok.injEq, Option.some.injEq, Prod.mk.injEq] at hR
    obtain ⟨rfl, rfl⟩ := hR
    refine ⟨rfl, hC.propagate' _, fun v => ?_, h⟩
    rw [propagate_eq' hC.transpose_eq, variance_eq, variance_eq, ← mulVec_mulVec, ← mulVec_mulVec,
      dotProduct_mulVec v]
    have : (fun j => ∑ i, v i * worldJacobian p i j) = v ᵥ* worldJacobian p := by funext j; rfl
    rw [this, mulVec_transpose]
  · rw [h2 h] at hR
    simp at hR

theorem bearing_x : Spherical.toCartesian { p := 1, theta := Real.pi / 2, phi := 0 } = ![1, 0, 0] := by
  funext i; fin_cases i <;> simp [Spherical.toCartesian]

/-- A point first seen from the origin along the first axis, at a depth of one. -/
noncomputable def seen : InverseDepth :=
  { first := 0, inverseDepth := 1, theta := Real.pi / 2, phi := 0, bearing := ![1, 0, 0] }

theorem seen_make : InverseDepth.make 0 1 (Real.pi / 2) 0 = .ok seen := by
  have := Real.pi_pos
  unfold InverseDepth.make
  rw [if_neg (by norm_num), if_neg (by rw [not_or]; constructor <;> linarith),
    if_neg (by rw [not_or]; constructor <;> linarith), bearing_x]
  rfl

/-- C120 is false: when the camera sees the point at a right angle to its first line of sight, it is promoted
however uncertain its depth is. -/
theorem C120_uncertain_depth_false (uncertainty : ℝ) (h : 0 ≤ uncertainty) :
    ∃ p C c2w x R, InverseDepth.make 0 1 (Real.pi / 2) 0 = .ok p ∧ IsCovariance C ∧
      computeUpgraded p C c2w = .ok (some (x, R)) ∧ dist3 x (translation c2w) = 1 ∧
      Real.sqrt (C 3 3) / p.inverseDepth ^ 2 = uncertainty := by
  have hC : IsCovariance ((uncertainty ^ 2) • (1 : Sq 6)) := isCovariance_smul_one (sq_nonneg _)
  have ht : translation (transformation 1 ![1, 1, 0]) = ![1, 1, 0] := by
    funext i; simp [translation, transformation]
  have hx : (![1, 0, 0] : V3) = fun i => seen.first i + seen.bearing i / seen.inverseDepth := by
    funext i; fin_cases i <;> simp [seen]
  have hne : (![1, 0, 0] : V3) ≠ translation (transformation 1 ![1, 1, 0]) := by
    rw [ht]; intro h; have := congrFun h 1; norm_num at this
  have hd : dist3 ![1, 0, 0] (translation (transformation 1 ![1, 1, 0])) = 1 := by
    rw [ht]; simp [dist3]
  refine ⟨seen, _, transformation 1 ![1, 1, 0], ![1, 0, 0], _, seen_make, hC,
    (computeUpgraded_eq (by simp [seen]) hC hx hne).1 ?_, hd, ?_⟩
  · have : cosSight seen.bearing (translation (transformation 1 ![1, 1, 0])) ![1, 0, 0] = 0 := by
      rw [ht]; simp [cosSight, seen]
    rw [this]
    norm_num
  · simp [seen, Real.sqrt_sq h]

/-- The hypotheses of C120 are met by the same point seen from behind. -/
example : 0 < seen.inverseDepth ∧ IsCovariance (1 : Sq 6) ∧
    (![1, 0, 0] : V3) = (fun i => seen.first i + seen.bearing i / seen.inverseDepth) ∧
    (![1, 0, 0] : V3) ≠ translation (transformation 1 ![-1, 0, 0]) := by
  refine ⟨by simp [seen], isCovariance_one, by funext i; fin_cases i <;> simp [seen], ?_⟩
  intro h
  have := congrFun h 0
  norm_num [translation, transformation] at this

/-! ### C121 -/

/-- C121: varying a point match moves the map point along each axis by the drawn number of standard
deviations, and changes nothing else. -/
theorem C121_point (f : Matched V2 V3 V3) (noise : V3) :
    (∀ i, (varyPoint f noise).map i - f.map i = noise i * f.deviation i) ∧
    (varyPoint f noise).detected = f.detected ∧ (varyPoint f noise).deviation = f.deviation ∧
    (varyPoint f noise).idInMap = f.idInMap ∧ (varyPoint f noise).idDetected = f.idDetected :=
  ⟨fun i => by simp [varyPoint], rfl, rfl, rfl, rfl⟩

/-- C121: varying a plane match gives a plane with a normal of length one in the direction of the moved
normal, whose distance moved by the drawn number of standard deviations. -/
theorem C121_plane (f : Matched Plane Plane (Fin 4 → ℝ)) (noise : V3) (noiseD : ℝ) (moved : V3)
    (hm : moved = ![f.map.normal 0 + noise 0 * f.deviation 0, f.map.normal 1 + noise 1 * f.deviation 1,
      f.map.normal 2 + noise 2 * f.deviation 2]) (hne : moved ≠ 0) :
    (varyPlane f noise noiseD).map.normal 0 ^ 2 + (varyPlane f noise noiseD).map.normal 1 ^ 2 +
      (varyPlane f noise noiseD).map.normal 2 ^ 2 = 1 ∧
    (∃ k, 0 < k ∧ ∀ i, moved i = k * (varyPlane f noise noiseD).map.normal i) ∧
    (varyPlane f noise noiseD).map.d - f.map.d = noiseD * f.deviation 3 ∧
    (varyPlane f noise noiseD).detected = f.detected ∧ (varyPlane f noise noiseD).deviation = f.deviation ∧
    (varyPlane f noise noiseD).idInMap = f.idInMap ∧ (varyPlane f noise noiseD).idDetected = f.idDetected := by
  have hk := norm_pos hne
  have hmm := norm_mul_self moved
  have hdd : 0 < moved ⬝ᵥ moved := by rw [← hmm]; positivity
  have hn : (varyPlane f noise noiseD).map.normal = (Geometry.norm moved)⁻¹ • moved := by
    have : (fun i => f.map.normal i + noise i * ![f.deviation 0, f.deviation 1, f.deviation 2] i) = moved := by
      rw [hm]; funext i; fin_cases i <;> simp
    simp only [varyPlane, Plane.make]
    rw [this, normalized, if_pos hdd]
  refine ⟨?_, ⟨Geometry.norm moved, hk, fun i => ?_⟩, by simp [varyPlane, Plane.make], rfl, rfl, rfl, rfl⟩
  · rw [hn]
    simp only [Pi.smul_apply, smul_eq_mul, mul_pow]
    rw [← mul_add, ← mul_add]
    rw [inv_pow, inv_mul_eq_one₀ (by positivity), sq, hmm]
    simp [dotProduct, Fin.sum_univ_three, sq]
  · rw [hn]
    simp only [Pi.smul_apply, smul_eq_mul]
    field_simp

theorem clamp_mem {x lo hi : ℝ} (h : lo ≤ hi) : lo ≤ clamp x lo hi ∧ clamp x lo hi ≤ hi :=
  ⟨le_max_left _ _, max_le h (min_le_right _ _)⟩

theorem clamp_near {x y lo hi : ℝ} (h1 : lo ≤ y) (h2 : y ≤ hi) : |clamp x lo hi - y| ≤ |x - y| := by
  have hx1 := le_abs_self (x - y)
  have hx2 := neg_abs_le (x - y)
  rw [abs_le]
  unfold clamp
  constructor
  · rcases le_total x hi with h | h
    · rw [min_eq_left h]; linarith [le_max_right lo x]
    · rw [min_eq_right h, max_eq_right (h1.trans h2)]; linarith [abs_nonneg (x - y)]
  · rcases le_total x hi with h | h
    · rw [min_eq_left h]; exact sub_le_iff_le_add.2 (max_le (by linarith [abs_nonneg (x - y)]) (by linarith))
    · rw [min_eq_right h, max_eq_right (h1.trans h2)]; linarith

/-- C121: varying a match of a point without depth never stops the program; it gives a valid point with the
same first observation and inverse depth, whose angles moved by at most the drawn number of standard
deviations, and by exactly that number when they stay in their range. -/
theorem C121_point2d (f : Matched V2 InverseDepth (Fin 6 → ℝ)) (u v : ℝ) (h0 : 0 ≤ f.map.inverseDepth)
    (ht : 0 ≤ f.map.theta ∧ f.map.theta ≤ Real.pi) (hp : -Real.pi ≤ f.map.phi ∧ f.map.phi ≤ Real.pi) :
    ∃ g, varyPoint2d f u v = .ok g ∧ g.map.first = f.map.first ∧ g.map.inverseDepth = f.map.inverseDepth ∧
      (0 ≤ g.map.theta ∧ g.map.theta ≤ Real.pi) ∧ (-Real.pi ≤ g.map.phi ∧ g.map.phi ≤ Real.pi) ∧
      |g.map.theta - f.map.theta| ≤ |u * f.deviation 4| ∧ |g.map.phi - f.map.phi| ≤ |v * f.deviation 5| ∧
      (0 ≤ f.map.theta + u * f.deviation 4 → f.map.theta + u * f.deviation 4 ≤ Real.pi →
        g.map.theta = f.map.theta + u * f.deviation 4) ∧
      (-Real.pi ≤ f.map.phi + v * f.deviation 5 → f.map.phi + v * f.deviation 5 ≤ Real.pi →
        g.map.phi = f.map.phi + v * f.deviation 5) ∧
      g.map.bearing = ![Real.sin g.map.theta * Real.cos g.map.phi, Real.sin g.map.theta * Real.sin g.map.phi,
        Real.cos g.map.theta] ∧
      g.detected = f.detected ∧ g.deviation = f.deviation ∧ g.idInMap = f.idInMap ∧
      g.idDetected = f.idDetected := by
  have hpi := Real.pi_pos
  obtain ⟨t1, t2⟩ := clamp_mem (x := f.map.theta + u * f.deviation 4) hpi.le
  obtain ⟨p1, p2⟩ := clamp_mem (x := f.map.phi + v * f.deviation 5) (show -Real.pi ≤ Real.pi by linarith)
  have e : varyPoint2d f u v = .ok { f with map :=
      { first := f.map.first, inverseDepth := f.map.inverseDepth
        theta := clamp (f.map.theta + u * f.deviation 4) 0 Real.pi
        phi := clamp (f.map.phi + v * f.deviation 5) (-Real.pi) Real.pi
        bearing := Spherical.toCartesian { p := 1, theta := clamp (f.map.theta + u * f.deviation 4) 0 Real.pi
                                           phi := clamp (f.map.phi + v * f.deviation 5) (-Real.pi) Real.pi }
        infinite := f.map.infinite } } := by
    unfold varyPoint2d InverseDepth.make
    rw [if_neg (by linarith), if_neg (by rw [not_or]; constructor <;> linarith),
      if_neg (by rw [not_or]; constructor <;> linarith)]
    rfl
  · refine ⟨_, e, rfl, rfl, ⟨t1, t2⟩, ⟨p1, p2⟩, ?_, ?_, ?_, ?_, ?_, rfl, rfl, rfl, rfl⟩
    · refine (clamp_near ht.1 ht.2).trans (le_of_eq ?_); congr 1; ring
    · refine (clamp_near hp.1 hp.2).trans (le_of_eq ?_); congr 1; ring
    · intro h1 h2; simp [clamp, h1, h2]
    · intro h1 h2; simp [clamp, h1, h2]
    · funext i; fin_cases i <;> simp [Spherical.toCartesian]

example : 0 ≤ seen.inverseDepth ∧ (0 ≤ seen.theta ∧ seen.theta ≤ Real.pi) ∧
    (-Real.pi ≤ seen.phi ∧ seen.phi ≤ Real.pi) := by
  have := Real.pi_pos
  refine ⟨by simp [seen], ⟨?_, ?_⟩, ⟨?_, ?_⟩⟩ <;> simp only [seen] <;> linarith

end RgbdSlam.Points2d
