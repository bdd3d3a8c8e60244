import Verif.Lemmas.Geodesic
/-
C151: geodesic dilation and erosion.  C152: the filling of holes.
-/
namespace RgbdSlam.Geodesic

open Spec

variable {h w : Nat}

theorem min_level {marker mask : Image h w} {v : Nat} {q : Pixel h w} :
    v ≤ min (marker q) (mask q) ↔ v ≤ marker q ∧ v ≤ mask q := le_min_iff

/-- C151: `n` geodesic dilations of the marker below the mask: a pixel reaches the level `v` exactly when a
walk of `n` steps by the offsets of the element, on pixels where the mask has the level `v`, leads from it to
a pixel where the marker has the level `v`.  Zero iterations give the marker. -/
theorem C151_iterations (fuel : Nat) (marker mask : Image h w) (se : Element) :
    geodesicDilation fuel marker mask se 0 = .ok marker ∧
    ∀ n : Nat, 0 < n → ∃ r, geodesicDilation fuel marker mask se n = .ok r ∧
      ∀ p v, 0 < v → (v ≤ r p ↔ ∃ q, Walk se (fun x => v ≤ mask x) n p q ∧ v ≤ marker q) := by
  refine ⟨rfl, fun n hn => ?_⟩
  unfold geodesicDilation
  rw [if_neg (by omega), if_neg (by omega)]
  refine ⟨_, rfl, fun p v hv => ?_⟩
  have he : ∀ f : Image h w, repeated (dilateUnder se mask) ((n : Int).toNat - 1) (dilateUnder se mask f) =
      repeated (dilateUnder se mask) n f := by
    intro f
    have : n = ((n : Int).toNat - 1) + 1 := by omega
    conv_rhs => rw [this]
    rfl
  rw [he, le_repeated hv (fun q hq => (min_level.1 hq).2)]
  constructor
  · rintro ⟨q, hw, hq⟩
    exact ⟨q, hw, (min_level.1 hq).1⟩
  · rintro ⟨q, hw, hq⟩
    exact ⟨q, hw, min_level.2 ⟨hq, (walk_ok hw).2⟩⟩

/-- C151: with an element that contains its anchor, the reconstruction (negative number of iterations) ends
after a number of turns bounded by 255 times the number of pixels, and gives what walks of any length reach:
a pixel has the level `v` exactly when a walk on pixels where the mask has the level `v` leads from it to a
pixel where the marker has the level `v`. -/
theorem C151_reconstruction_partial (marker mask : Image h w) (hm : Bytes mask) (se : Element) (h0 : (0, 0) ∈ se)
    (iterations : Int) (hi : iterations < 0) :
    ∃ r, (∀ fuel, h * w * 255 < fuel → geodesicDilation fuel marker mask se iterations = .ok r) ∧
      ∀ p v, 0 < v → (v ≤ r p ↔ ∃ n q, Walk se (fun x => v ≤ mask x) n p q ∧ v ≤ marker q) := by
  set f0 : Image h w := fun p => min (marker p) (mask p) with hf0
  have hunder : ∀ p, f0 p ≤ mask p := fun p => Nat.min_le_right _ _
  set f1 := dilateUnder se mask f0 with hf1
  have hu1 : ∀ p, f1 p ≤ mask p := fun p => Nat.min_le_right _ _
  obtain ⟨n, hn, hst⟩ := stable_step (dilateUnder se mask) (b := 255) f1
    (fun n p => by rw [repeated_succ]; exact grows h0 (repeated_under hu1 n) p)
    (fun n p => Nat.le_trans (repeated_under hu1 n p) (hm p))
  refine ⟨repeated (dilateUnder se mask) n f1, fun fuel hfuel => ?_, fun p v hv => ?_⟩
  · unfold geodesicDilation
    rw [if_pos hi]
    exact untilStable_eq _ n f1 hst fuel (by omega)
  · have hlate : ∀ k, repeated (dilateUnder se mask) (n + k) f1 = repeated (dilateUnder se mask) n f1 := by
      intro k
      induction k with
      | zero => rfl
      | succ k ih => rw [← Nat.add_assoc, repeated_succ, ih, hst]
    have hl : ∀ m, v ≤ repeated (dilateUnder se mask) m f1 p ↔
        ∃ q, Walk se (fun x => v ≤ mask x) (m + 1) p q ∧ v ≤ f0 q := by
      intro m
      exact le_repeated hv (f := f0) (fun q hq => Nat.le_trans hq (hunder q)) (m + 1) p
    constructor
    · intro hp
      obtain ⟨q, hw, hq⟩ := (hl n).1 hp
      exact ⟨_, q, hw, (min_level.1 hq).1⟩
    · rintro ⟨m, q, hw, hq⟩
      have hq0 : v ≤ f0 q := min_level.2 ⟨hq, (walk_ok hw).2⟩
      rw [← hlate m, hl]
      exact ⟨q, walk_longer h0 hw _ (by omega), hq0⟩

/-- C151 is false without the anchor: with an element made of the pixels on the left and on the right, the
reconstruction of two pixels below a white mask never ends. -/
theorem C151_reconstruction_false : ∃ (marker mask : Image 1 2) (se : Element), Bytes marker ∧ Bytes mask ∧
    se ≠ [] ∧ ∀ fuel, geodesicDilation fuel marker mask se (-1) = .outOfFuel := by
  let se : Element := [(0, -1), (0, 1)]
  let mask : Image 1 2 := fun _ => 255
  let a : Image 1 2 := fun p => if p.2.val = 0 then 255 else 0
  let b : Image 1 2 := fun p => if p.2.val = 0 then 0 else 255
  have hab : dilateUnder se mask a = b := by
    funext ⟨i, j⟩; revert i j; decide
  have hba : dilateUnder se mask b = a := by
    funext ⟨i, j⟩; revert i j; decide
  have hne : differ a b = true := by decide
  have hne' : differ b a = true := by decide
  have hmin : (fun p => min (a p) (mask p)) = a := by
    funext ⟨i, j⟩; revert i j; decide
  refine ⟨a, mask, se, ?_, fun _ => Nat.le_refl _, by decide, fun fuel => ?_⟩
  · rintro ⟨i, j⟩; revert i j; decide
  · have key : ∀ n, untilStable (dilateUnder se mask) n a = .outOfFuel ∧
        untilStable (dilateUnder se mask) n b = .outOfFuel := by
      intro n
      induction n with
      | zero => exact ⟨rfl, rfl⟩
      | succ n ih =>
        constructor
        · rw [untilStable, hab, hne]; exact ih.2
        · rw [untilStable, hba, hne']; exact ih.1
    unfold geodesicDilation
    rw [if_pos (by decide), hmin, hab]
    exact (key fuel).2

/-- C151: the geodesic erosion is the dilation seen in the negatives, for every number of iterations; it ends
exactly when that dilation does. -/
theorem C151_erosion (fuel : Nat) (marker mask : Image h w) (hm : Bytes mask) (se : Element) (iterations : Int) :
    geodesicErosion fuel (complement marker) (complement mask) se iterations =
      (geodesicDilation fuel marker mask se iterations).map complement := by
  have hmin : Bytes fun p => min (marker p) (mask p) := fun p => Nat.le_trans (Nat.min_le_right _ _) (hm p)
  have h1 : erodeOver se (complement mask) (fun p => max (complement marker p) (complement mask p)) =
      complement (dilateUnder se mask fun p => min (marker p) (mask p)) := by
    rw [← complement_min, complement_dilateUnder hmin]
  unfold geodesicErosion geodesicDilation
  rw [h1]
  split_ifs
  · exact complement_untilStable hm fuel _ (bytes_dilateUnder hm)
  · rfl
  · rw [complement_repeated hm _ _ (bytes_dilateUnder hm)]
    rfl

/-- C151: so the erosion reconstruction goes down to `u` exactly where a walk on pixels where the mask is at
most `u` leads to a pixel where the marker is at most `u`. -/
theorem C151_erosion_reconstruction (marker mask : Image h w) (hk : Bytes marker) (hm : Bytes mask) (se : Element)
    (h0 : (0, 0) ∈ se) (iterations : Int) (hi : iterations < 0) :
    ∃ r, (∀ fuel, h * w * 255 < fuel → geodesicErosion fuel marker mask se iterations = .ok r) ∧ Bytes r ∧
      ∀ p u, u < 255 → (r p ≤ u ↔ ∃ n q, Walk se (fun x => mask x ≤ u) n p q ∧ marker q ≤ u) := by
  obtain ⟨r, h1, h2⟩ := C151_reconstruction_partial (complement marker) (complement mask) (bytes_complement _) se h0
    iterations hi
  have hr : Bytes r := by
    intro p
    by_contra hno
    obtain ⟨n, q, -, hq⟩ := (h2 p 256 (by omega)).1 (by omega)
    have := bytes_complement marker q
    omega
  refine ⟨complement r, fun fuel hfuel => ?_, bytes_complement r, fun p u hu => ?_⟩
  · have := C151_erosion fuel (complement marker) (complement mask) (bytes_complement _) se iterations
    rw [complement_complement hk, complement_complement hm, h1 fuel hfuel] at this
    exact this
  · have e : complement r p ≤ u ↔ 255 - u ≤ r p := by
      have := hr p
      unfold complement
      omega
    have e1 : (fun x => 255 - u ≤ complement mask x) = fun x => mask x ≤ u := by
      funext x
      have := hm x
      unfold complement
      rw [eq_iff_iff]
      omega
    rw [e, h2 p _ (by omega), e1]
    constructor
    · rintro ⟨n, q, hw, hq⟩
      refine ⟨n, q, hw, ?_⟩
      have := hk q
      unfold complement at hq
      omega
    · rintro ⟨n, q, hw, hq⟩
      refine ⟨n, q, hw, ?_⟩
      unfold complement
      omega

example : ((0, 0) : Int × Int) ∈ square3 := by decide

/-- A marker with one bright pixel and a mask with two bright pixels that touch and one apart. -/
example : geodesicDilation 2000 (fun p : Pixel 1 5 => if p.2.val = 0 then 200 else 0)
    (fun p => if p.2.val = 2 then 0 else 100) square3 (-1) =
      .ok fun p => if p.2.val ≤ 1 then 100 else 0 := by
  obtain ⟨r, h1, h2⟩ := C151_reconstruction_partial (fun p : Pixel 1 5 => if p.2.val = 0 then 200 else 0)
    (fun p => if p.2.val = 2 then 0 else 100) (fun p => by dsimp only; split <;> omega) square3 (by decide) (-1)
    (by decide)
  have h3 := untilStable_eq (dilateUnder square3 fun p : Pixel 1 5 => if p.2.val = 2 then 0 else 100) 0
    (dilateUnder square3 (fun p => if p.2.val = 2 then 0 else 100)
      fun p => min (if p.2.val = 0 then 200 else 0) (if p.2.val = 2 then 0 else 100))
    (by rw [repeated]; funext ⟨i, j⟩; revert i j; decide) 2000 (by omega)
  unfold geodesicDilation
  rw [if_pos (by decide), h3]
  congr 1
  rw [repeated]
  funext ⟨i, j⟩; revert i j; decide

/-! ## Holes -/

theorem near_square3 {p q : Pixel h w} : Near square3 p q ↔ Touch p q := by
  unfold Near Touch square3
  constructor
  · rintro ⟨d, hd, h1, h2⟩
    simp only [List.mem_cons, List.not_mem_nil, or_false] at hd
    rcases hd with rfl | rfl | rfl | rfl | rfl | rfl | rfl | rfl | rfl <;> dsimp only at h1 h2 <;> omega
  · rintro ⟨h1, h2⟩
    refine ⟨((q.1.val : Int) - p.1.val, (q.2.val : Int) - p.2.val), ?_, by omega, by omega⟩
    have e1 : (q.1.val : Int) - p.1.val = -1 ∨ (q.1.val : Int) - p.1.val = 0 ∨ (q.1.val : Int) - p.1.val = 1 := by
      omega
    have e2 : (q.2.val : Int) - p.2.val = -1 ∨ (q.2.val : Int) - p.2.val = 0 ∨ (q.2.val : Int) - p.2.val = 1 := by
      omega
    rcases e1 with e1 | e1 | e1 <;> rcases e2 with e2 | e2 | e2 <;> rw [e1, e2] <;> decide

theorem path_iff {ok : Pixel h w → Prop} {p q : Pixel h w} : Path ok p q ↔ ∃ n, Walk square3 ok n p q := by
  constructor
  · intro hp
    induction hp with
    | stay h => exact ⟨0, .stay h⟩
    | go h ht _ ih =>
      obtain ⟨n, hn⟩ := ih
      exact ⟨n + 1, .go h (near_square3.2 ht) hn⟩
  · rintro ⟨n, hn⟩
    induction hn with
    | stay h => exact .stay h
    | go h ht _ ih => exact .go h (near_square3.1 ht) ih

/-- What `fillHole` does, whatever the memory held: it ends, and a pixel ends as dark as `u` exactly when a
path of touching pixels that are as dark as `u` leads from it to a pixel whose marker is as bright as
`255 - u`. -/
theorem fillHole_spec (memory src : Image (h + 1) (w + 1)) (hs : Bytes src) :
    ∃ r, (∀ fuel, (h + 1) * (w + 1) * 255 < fuel → fillHole fuel memory src = .ok r) ∧ Bytes r ∧
      ∀ p u, u < 255 → (r p ≤ u ↔ ∃ q, Path (fun x => src x ≤ u) p q ∧ 255 - u ≤ holeMarker memory src q) := by
  obtain ⟨r, h1, h2⟩ := C151_reconstruction_partial (holeMarker memory src) (complement src) (bytes_complement _)
    square3 (by decide) (-1) (by decide)
  refine ⟨complement r, fun fuel hfuel => by rw [fillHole, h1 fuel hfuel]; rfl, bytes_complement r,
    fun p u hu => ?_⟩
  have e : complement r p ≤ u ↔ 255 - u ≤ r p := by
    unfold complement
    omega
  have e1 : (fun x => 255 - u ≤ complement src x) = fun x => src x ≤ u := by
    funext x
    have := hs x
    unfold complement
    rw [eq_iff_iff]
    omega
  rw [e, h2 p _ (by omega), e1]
  simp only [path_iff]
  constructor
  · rintro ⟨n, q, hw, hq⟩
    exact ⟨q, ⟨n, hw⟩, hq⟩
  · rintro ⟨q, ⟨n, hw⟩, hq⟩
    exact ⟨n, q, hw, hq⟩

theorem path_ok {ok : Pixel h w → Prop} {p q : Pixel h w} (hp : Path ok p q) : ok p ∧ ok q := by
  induction hp with
  | stay h => exact ⟨h, h⟩
  | go h _ _ ih => exact ⟨h, ih.2⟩

/-- C152, what holds for every image and every content of the memory: the function ends, no pixel gets
darker, and a pixel that a path of pixels as dark as `u` joins to the first or to the last row stays as dark
as `u`. -/
theorem C152_kept_partial (memory src : Image (h + 1) (w + 1)) (hs : Bytes src) :
    ∃ r, (∀ fuel, (h + 1) * (w + 1) * 255 < fuel → fillHole fuel memory src = .ok r) ∧
      (∀ p, src p ≤ r p) ∧
      ∀ p q u, u < 255 → q.1.val = 0 ∨ q.1.val = h → Path (fun x => src x ≤ u) p q → r p ≤ u := by
  obtain ⟨r, h1, h2, h3⟩ := fillHole_spec memory src hs
  refine ⟨r, h1, fun p => ?_, fun p q u hu hq hp => ?_⟩
  · by_cases hr : r p < 255
    · obtain ⟨q, hp, -⟩ := (h3 p (r p) hr).1 (Nat.le_refl _)
      exact (path_ok hp).1
    · have := hs p
      omega
  · refine (h3 p u hu).2 ⟨q, hp, ?_⟩
    have hm : holeMarker memory src q = 255 - src q := by
      unfold holeMarker
      rcases hq with hq | hq
      · rw [if_pos hq]
      · split
        · rfl
        · rfl
    have := (path_ok hp).2
    omega

/-- C152: when the memory held zeros, and no pixel of the left side is darker than the last one of that side,
nor any of the right side darker than the last one of that side, the holes are filled and nothing else. -/
theorem C152_filled_partial (memory src : Image (h + 1) (w + 1)) (hs : Bytes src) (hz : ∀ p, memory p = 0)
    (hl : ∀ i, src (Fin.last h, 0) ≤ src (i, 0)) (hr : ∀ i, src (Fin.last h, Fin.last w) ≤ src (i, Fin.last w)) :
    ∃ r, (∀ fuel, (h + 1) * (w + 1) * 255 < fuel → fillHole fuel memory src = .ok r) ∧ Filled src r := by
  obtain ⟨r, h1, h2, h3⟩ := fillHole_spec memory src hs
  refine ⟨r, h1, h2, fun p u hu => (h3 p u hu).trans ?_⟩
  constructor
  · rintro ⟨q, hp, hq⟩
    refine ⟨q, ?_, hp⟩
    by_contra hb
    unfold Border at hb
    push Not at hb
    unfold holeMarker at hq
    rw [if_neg hb.1, if_neg hb.2.1, if_neg hb.2.2.2, if_neg hb.2.2.1, hz] at hq
    omega
  · rintro ⟨q, hb, hp⟩
    refine ⟨q, hp, ?_⟩
    have hq := (path_ok hp).2
    unfold holeMarker
    split
    · omega
    · split
      · omega
      · split
        · rename_i hw
          have hqw : q = (q.1, Fin.last w) := Prod.ext rfl (Fin.ext hw)
          have := hr q.1
          rw [← hqw] at this
          omega
        · rename_i h4 h5 h6
          have hq0 : q.2.val = 0 := by
            rcases hb with hb | hb | hb | hb
            · exact absurd hb h4
            · exact absurd hb h5
            · exact hb
            · exact absurd hb h6
          rw [if_pos hq0]
          have hqw : q = (q.1, 0) := Prod.ext rfl (Fin.ext hq0)
          have := hl q.1
          rw [← hqw] at this
          omega

/-- A white ring around a black pixel. -/
def ring : Image 3 3 := fun p => if p.1.val = 1 ∧ p.2.val = 1 then 0 else 255

/-- The white square with a black pixel on its left side. -/
def notch : Image 3 3 := fun p => if p.1.val = 1 ∧ p.2.val = 0 then 0 else 255

/-- A black frame around a white ring around a black pixel. -/
def target : Image 5 5 := fun p =>
  if p.1.val = 0 ∨ p.1.val = 4 ∨ p.2.val = 0 ∨ p.2.val = 4 ∨ (p.1.val = 2 ∧ p.2.val = 2) then 0 else 255

/-- The hypotheses of `C152_filled_partial`, and a hole that is filled. -/
example : Bytes target ∧ (∀ i, target (Fin.last 4, 0) ≤ target (i, 0)) ∧
    (∀ i, target (Fin.last 4, Fin.last 4) ≤ target (i, Fin.last 4)) ∧ target (2, 2) = 0 := by
  refine ⟨?_, by decide, by decide, rfl⟩
  rintro ⟨i, j⟩; revert i j; decide

/-- C152 is false because the marker is not initialised: when the memory held 255, the hole in the ring is
not filled. -/
theorem C152_memory_false : ∃ memory : Image 3 3, Bytes memory ∧ Bytes ring ∧
    ∃ r, (∀ fuel, 3 * 3 * 255 < fuel → fillHole fuel memory ring = .ok r) ∧ ¬ Filled ring r := by
  have hs : Bytes ring := by rintro ⟨i, j⟩; revert i j; decide
  obtain ⟨r, h1, h2, h3⟩ := fillHole_spec (fun _ => 255) ring hs
  refine ⟨fun _ => 255, fun _ => Nat.le_refl _, hs, r, h1, fun hf => ?_⟩
  have hr : r (1, 1) ≤ 0 := (h3 (1, 1) 0 (by decide)).2 ⟨(1, 1), .stay (by decide), by decide⟩
  obtain ⟨q, hb, hp⟩ := (hf.2 (1, 1) 0 (by decide)).1 hr
  have hq := (path_ok hp).2
  unfold ring at hq
  unfold Border at hb
  split at hq <;> omega

/-- C152 is false because the sides take the values of the last row, even when the memory held zeros: the
notch, which is open to the left, is filled. -/
theorem C152_side_false : Bytes notch ∧
    ∃ r, (∀ fuel, 3 * 3 * 255 < fuel → fillHole fuel (fun _ => 0) notch = .ok r) ∧ ¬ Filled notch r := by
  have hs : Bytes notch := by rintro ⟨i, j⟩; revert i j; decide
  obtain ⟨r, h1, h2, h3⟩ := fillHole_spec (fun _ => 0) notch hs
  refine ⟨hs, r, h1, fun hf => ?_⟩
  have hr : r (1, 0) ≤ 0 := (hf.2 (1, 0) 0 (by decide)).2 ⟨(1, 0), .inr (.inr (.inl rfl)), .stay (by decide)⟩
  obtain ⟨q, hp, hq⟩ := (h3 (1, 0) 0 (by decide)).1 hr
  have hm : ∀ q : Pixel 3 3, holeMarker (fun _ => 0) notch q = 0 := by
    rintro ⟨i, j⟩; revert i j; decide
  rw [hm] at hq
  omega

end RgbdSlam.Geodesic
