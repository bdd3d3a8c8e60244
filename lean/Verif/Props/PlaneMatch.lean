import Verif.Spec.PlaneMatch
import Verif.Lemmas.Matching
/-
C122: the detected plane matched to a map plane.
-/
namespace RgbdSlam.Map

open Spec

variable {P D Env : Type}

/-- What the search loop accepts, from the index `i` on. -/
structure Fits (o : PlaneOps P D Env) (env : Env) (body : P) (flags : List Bool) (threshold : Rat)
    (i : Nat) (ds : List D) (k : Nat) (d : D) : Prop where
  le : i ≤ k
  get : ds[k - i]? = some d
  unused : flags[k]? ≠ some true
  near : o.similar env body d = true
  enough : o.detectedArea d = 0 ∨ threshold ≤ o.interArea env body d / o.detectedArea d

theorem Fits.tail {o : PlaneOps P D Env} {env : Env} {body : P} {flags : List Bool} {threshold : Rat} {i : Nat}
    {d : D} {ds : List D} {k : Nat} {e : D} (h : Fits o env body flags threshold i (d :: ds) k e) (hk : k ≠ i) :
    Fits o env body flags threshold (i + 1) ds k e := by
  have h1 := h.le
  have h2 := h.get
  have : k - i = (k - (i + 1)) + 1 := by omega
  rw [this, List.getElem?_cons_succ] at h2
  exact ⟨by omega, h2, h.unused, h.near, h.enough⟩

theorem Fits.cons {o : PlaneOps P D Env} {env : Env} {body : P} {flags : List Bool} {threshold : Rat} {i : Nat}
    (d : D) {ds : List D} {k : Nat} {e : D} (h : Fits o env body flags threshold (i + 1) ds k e) :
    Fits o env body flags threshold i (d :: ds) k e := by
  have h1 := h.le
  refine ⟨by omega, ?_, h.unused, h.near, h.enough⟩
  have : k - i = (k - (i + 1)) + 1 := by omega
  rw [this, List.getElem?_cons_succ]
  exact h.get

theorem Fits.head {o : PlaneOps P D Env} {env : Env} {body : P} {flags : List Bool} {threshold : Rat} {i : Nat}
    {d : D} {ds : List D} {e : D} (h : Fits o env body flags threshold i (d :: ds) i e) : e = d := by
  have := h.get
  simpa using this.symm

theorem planeSearch_best (o : PlaneOps P D Env) (env : Env) (body : P) (flags : List Bool)
    (threshold : Rat) (i : Nat) (ds : List D) (sel : Int) (best : Rat) :
    (planeSearch o env body flags threshold i ds sel best = sel ∧
      ∀ k d, Fits o env body flags threshold i ds k d → o.interArea env body d ≤ best) ∨
    ∃ j d, planeSearch o env body flags threshold i ds sel best = (j : Nat) ∧
      Fits o env body flags threshold i ds j d ∧ best < o.interArea env body d ∧
      ∀ k e, Fits o env body flags threshold i ds k e → o.interArea env body e ≤ o.interArea env body d ∧
        (k < j → o.interArea env body e < o.interArea env body d) := by
  induction ds generalizing i sel best with
  | nil => exact .inl ⟨rfl, fun k d h => by simpa using h.get⟩
  | cons d ds ih =>
    have skip : (∀ e, Fits o env body flags threshold i (d :: ds) i e → o.interArea env body e ≤ best) →
        (planeSearch o env body flags threshold (i + 1) ds sel best = sel ∧
          ∀ k e, Fits o env body flags threshold i (d :: ds) k e → o.interArea env body e ≤ best) ∨
        ∃ j e, planeSearch o env body flags threshold (i + 1) ds sel best = (j : Nat) ∧
          Fits o env body flags threshold i (d :: ds) j e ∧ best < o.interArea env body e ∧
          ∀ k g, Fits o env body flags threshold i (d :: ds) k g →
            o.interArea env body g ≤ o.interArea env body e ∧
            (k < j → o.interArea env body g < o.interArea env body e) := by
      intro h0
      rcases ih (i + 1) sel best with ⟨h1, h2⟩ | ⟨j, e, h1, h2, h3, h4⟩
      · refine .inl ⟨h1, fun k e hk => ?_⟩
        by_cases hki : k = i
        · subst hki; exact h0 e hk
        · exact h2 k e (hk.tail hki)
      · refine .inr ⟨j, e, h1, h2.cons d, h3, fun k g hk => ?_⟩
        by_cases hki : k = i
        · subst hki; have := h0 g hk; grind
        · exact h4 k g (hk.tail hki)
    simp only [planeSearch]
    split
    · rename_i hfl
      exact skip fun e he => absurd hfl he.unused
    · rename_i hfl
      split
      · rename_i hsim
        refine skip fun e he => ?_
        have := he.near
        rw [he.head] at this
        simp [this] at hsim
      · rename_i hsim
        split
        · rename_i hb
          have hd : Fits o env body flags threshold i (d :: ds) i d :=
            ⟨Nat.le_refl _, by simp, hfl, by simpa using hsim, hb.2⟩
          rcases ih (i + 1) (i : Int) (o.interArea env body d) with ⟨h1, h2⟩ | ⟨j, e, h1, h2, h3, h4⟩
          · refine .inr ⟨i, d, h1, hd, hb.1, fun k g hk => ?_⟩
            by_cases hki : k = i
            · subst hki; rw [hk.head]; exact ⟨Rat.le_refl, fun h => absurd h (by omega)⟩
            · have := hk.le
              exact ⟨h2 k g (hk.tail hki), fun h => absurd h (by omega)⟩
          · refine .inr ⟨j, e, h1, h2.cons d, by grind, fun k g hk => ?_⟩
            by_cases hki : k = i
            · subst hki; rw [hk.head]; exact ⟨by grind, fun _ => h3⟩
            · exact h4 k g (hk.tail hki)
        · rename_i hb
          refine skip fun e he => ?_
          have h1 := he.enough
          rw [he.head] at h1 ⊢
          grind

theorem planeFind_best (o : PlaneOps P D Env) (env : Env) (det : List D) (f : Feat P) (flags : List Bool)
    (toMatches advanced : Bool) (harea : 0 < o.projectedArea env f.body) :
    (planeFind o env det f flags toMatches advanced = ([], []) ∧
      ((∀ k d, ¬Candidate o env f.body det flags (if advanced then 1 / 5 else 2 / 5) k d) ∨
        ∃ d, Best o env f.body det flags (if advanced then 1 / 5 else 2 / 5) 0 d)) ∨
    ∃ j d, 0 < j ∧ planeFind o env det f flags toMatches advanced = ([j], if toMatches then [j] else []) ∧
      Best o env f.body det flags (if advanced then 1 / 5 else 2 / 5) j d := by
  have hth : (if advanced = true then minimumPlaneOverlap / 2 else minimumPlaneOverlap) =
      (if advanced = true then 1 / 5 else 2 / 5 : Rat) := by
    cases advanced <;> decide +kernel
  simp only [planeFind, hth]
  generalize (if advanced = true then 1 / 5 else 2 / 5 : Rat) = th
  rw [if_neg (by grind)]
  have conv : ∀ k d, Candidate o env f.body det flags th k d → Fits o env f.body flags th 0 det k d ∧
      0 < o.interArea env f.body d := fun k d h =>
    ⟨⟨Nat.zero_le _, by simpa using h.detected, h.unused, h.near, h.enough⟩, h.shared⟩
  rcases planeSearch_best o env f.body flags th 0 det (-1) 0 with ⟨h1, h2⟩ | ⟨j, d, h1, h2, h3, h4⟩
  · left
    rw [h1]
    refine ⟨by simp, .inl fun k d h => ?_⟩
    have := h2 k d (conv k d h).1
    have := h.shared
    grind
  · have hc : Candidate o env f.body det flags th j d :=
      ⟨by simpa using h2.get, h2.unused, h2.near, h3, h2.enough⟩
    have hb : Best o env f.body det flags th j d := ⟨hc, fun k e h => h4 k e (conv k e h).1⟩
    rw [h1]
    rcases Nat.eq_zero_or_pos j with rfl | hj
    · left
      exact ⟨by simp, .inr ⟨d, hb⟩⟩
    · right
      refine ⟨j, d, hj, ?_, hb⟩
      rw [if_neg (by omega)]
      simp

theorem Spec.Best.unique {o : PlaneOps P D Env} {env : Env} {body : P} {det : List D} {flags : List Bool} {th : Rat}
    {j k : Nat} {d e : D} (h : Best o env body det flags th j d) (h' : Best o env body det flags th k e) :
    j = k := by
  have h1 := h.2 k e h'.1
  have h2 := h'.2 j d h.1
  refine Decidable.byContradiction fun hne => ?_
  rcases Nat.lt_or_gt_of_ne hne with h3 | h3
  · have := h2.2 h3; grind
  · have := h1.2 h3; grind

/-- C122 (partial: only for detected planes other than the first one): a visible map plane is matched to the
detected plane `k` exactly when `k` is the candidate that covers the greatest area, the first of them if they
are several; two fifths of the area of a detected plane must be covered, one fifth in an advanced search. -/
theorem C122_best_plane_partial (o : PlaneOps P D Env) (env : Env) (det : List D) (f : Feat P) (flags : List Bool)
    (toMatches advanced : Bool) (harea : 0 < o.projectedArea env f.body) (k : Nat) (hk : k ≠ 0) :
    ((planeKind o).findMatches env det f flags toMatches advanced =
        ([k], if toMatches then [k] else [])) ↔
      ∃ d, Best o env f.body det flags (if advanced then 1 / 5 else 2 / 5) k d := by
  change planeFind o env det f flags toMatches advanced = _ ↔ _
  rcases planeFind_best o env det f flags toMatches advanced harea with ⟨h1, h2⟩ | ⟨j, d, hj, h1, h2⟩
  · rw [h1]
    constructor
    · intro h; simp at h
    · rintro ⟨d, hd⟩
      rcases h2 with h2 | ⟨e, he⟩
      · exact absurd hd.1 (h2 k d)
      · exact absurd (hd.unique he) hk
  · rw [h1]
    constructor
    · intro h
      have : j = k := by simpa using (congrArg Prod.fst h)
      exact ⟨d, this ▸ h2⟩
    · rintro ⟨e, he⟩
      rw [h2.unique he]

/-- C122: without candidate nothing is matched, nor when the map plane is not in front of the camera. -/
theorem C122_no_candidate (o : PlaneOps P D Env) (env : Env) (det : List D) (f : Feat P) (flags : List Bool)
    (toMatches advanced : Bool)
    (h : o.projectedArea env f.body ≤ 0 ∨
      ∀ k d, ¬Candidate o env f.body det flags (if advanced then 1 / 5 else 2 / 5) k d) :
    (planeKind o).findMatches env det f flags toMatches advanced = ([], []) := by
  change planeFind o env det f flags toMatches advanced = _
  by_cases ha : o.projectedArea env f.body ≤ 0
  · simp [planeFind, ha]
  · have hn := h.resolve_left ha
    rcases planeFind_best o env det f flags toMatches advanced (by grind) with ⟨h1, -⟩ | ⟨j, d, -, -, h2⟩
    · exact h1
    · exact absurd h2.1 (hn j d)

/-- C122 is false: when the first detected plane is the best candidate nothing is matched, neither to it nor
to the other candidates. -/
theorem C122_first_plane_false (o : PlaneOps P D Env) (env : Env) (det : List D) (f : Feat P) (flags : List Bool)
    (toMatches advanced : Bool) (d : D)
    (h : Best o env f.body det flags (if advanced then 1 / 5 else 2 / 5) 0 d) :
    (planeKind o).findMatches env det f flags toMatches advanced = ([], []) := by
  by_cases ha : o.projectedArea env f.body ≤ 0
  · exact C122_no_candidate o env det f flags toMatches advanced (.inl ha)
  · change planeFind o env det f flags toMatches advanced = _
    rcases planeFind_best o env det f flags toMatches advanced (by grind) with ⟨h1, -⟩ | ⟨j, e, hj, -, h2⟩
    · exact h1
    · have := h.unique h2
      omega

/-- Planes are a position and an area; they share what the smaller of them covers. -/
def areaOps : PlaneOps (Nat × Rat) (Nat × Rat) Unit where
  isVisible _ _ := true
  projectedArea _ p := p.2
  similar _ p d := p.1 == d.1
  interArea _ p d := min p.2 d.2
  detectedArea d := d.2
  update _ d _ := .ok (d, true)
  build _ d := some d
  copy p := some p
  covValid _ := true

def areaPlane : Feat (Nat × Rat) :=
  { id := 1, body := (3, 4), failed := 0, succ := 0, matched := [] }

/-- Two candidates after the first detection: the second one covers more. -/
example : Best areaOps () areaPlane.body [(2, 9), (3, 1), (3, 5)] [false, false, false] (2 / 5) 2 (3, 5) ∧
    (0 : Rat) < areaOps.projectedArea () areaPlane.body ∧
    (planeKind areaOps).findMatches () [(2, 9), (3, 1), (3, 5)] areaPlane [false, false, false] true false =
      ([2], [2]) := by
  refine ⟨⟨⟨by decide +kernel, by decide +kernel, by decide +kernel, by decide +kernel, by decide +kernel⟩, ?_⟩,
    by decide +kernel, by decide +kernel⟩
  intro j e h
  have h1 := h.detected
  match j with
  | 0 => simp at h1; subst h1; exact absurd h.near (by decide +kernel)
  | 1 => simp at h1; subst h1; exact ⟨by decide +kernel, fun _ => by decide +kernel⟩
  | 2 => simp at h1; subst h1; exact ⟨by decide +kernel, fun h => absurd h (by omega)⟩
  | j + 3 => simp at h1

/-- The best candidate is the first detection: nothing is matched. -/
example : Best areaOps () areaPlane.body [(3, 5), (3, 1)] [false, false] (2 / 5) 0 (3, 5) ∧
    (planeKind areaOps).findMatches () [(3, 5), (3, 1)] areaPlane [false, false] true false = ([], []) := by
  refine ⟨⟨⟨by decide +kernel, by decide +kernel, by decide +kernel, by decide +kernel, by decide +kernel⟩, ?_⟩,
    by decide +kernel⟩
  intro j e h
  have h1 := h.detected
  match j with
  | 0 => simp at h1; subst h1; exact ⟨by decide +kernel, fun h => absurd h (by omega)⟩
  | 1 => simp at h1; subst h1; exact ⟨by decide +kernel, fun h => absurd h (by omega)⟩
  | j + 2 => simp at h1

end RgbdSlam.Map
