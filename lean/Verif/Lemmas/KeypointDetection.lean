import Verif.Spec.KeypointDetection
import Mathlib.Tactic.SplitIfs
import Mathlib.Tactic.ByContra
import Mathlib.Data.List.Perm.Subperm
import Mathlib.Data.List.Nodup
set_option linter.unusedSimpArgs false
namespace RgbdSlam.KeypointDetection

open Keypoints (Pt Tracked Flow Handler DepthImage getDepth opticalFlow keptForward)

/-! ### Optical flow -/

theorem filterMap_zipIdx_fst {α β : Type} (H : α → Option β) (l : List α) (n : Nat) :
    (l.zipIdx n).filterMap (fun x => H x.1) = l.filterMap H := by
  induction l generalizing n with
  | nil => rfl
  | cons a l ih => simp only [List.zipIdx_cons, List.filterMap_cons, ih]

theorem zip_map_self {α β γ : Type} (l : List α) (f : α → β) (g : β → γ) :
    l.zip ((l.map f).map g) = l.map fun a => (a, g (f a)) := by
  induction l with
  | nil => rfl
  | cons a l ih => rw [List.map_cons, List.map_cons, List.zip_cons_cons, ih]; rfl

theorem filterMap_congr' {α β : Type} {f g : α → Option β} : ∀ {l : List α},
    (∀ x ∈ l, f x = g x) → l.filterMap f = l.filterMap g
  | [], _ => rfl
  | a :: l, h => by
    simp only [List.filterMap_cons, h a List.mem_cons_self,
      filterMap_congr' fun x hx => h x (List.mem_cons_of_mem _ hx)]

theorem opticalFlow_pointwise (cols rows : Nat) (last : List Tracked) (forward : List Flow)
    (back : Pt → Flow) :
    opticalFlow cols rows last forward (fun l => l.map back) =
      (last.zip forward).filterMap fun tf =>
        if tf.2.status ≠ 1 then none
        else if !Keypoints.inBorder tf.2.pt cols rows 0 then none
        else if (back tf.2.pt).status ≠ 1 then none
        else if ((30 * 30 : Nat) : Rat) < Keypoints.dist2 tf.1.pt (back tf.2.pt).pt then none
        else some ⟨tf.1.id, tf.2.pt⟩ := by
  unfold opticalFlow
  dsimp only
  rw [zip_map_self, List.filterMap_map]
  unfold keptForward
  rw [List.filterMap_filterMap, ← filterMap_zipIdx_fst _ (last.zip forward) 0]
  apply filterMap_congr'
  rintro ⟨⟨t, f⟩, i⟩ hm
  have h := List.mem_zipIdx' hm
  have h1 : last[i]? = some t ∧ forward[i]? = some f := by
    obtain ⟨h1, h2⟩ := h
    have : (last.zip forward)[i]? = some (t, f) := by rw [List.getElem?_eq_getElem h1, ← h2]
    rw [List.getElem?_zip_eq_some] at this
    exact this
  dsimp only
  by_cases c1 : f.status = 1
  · by_cases c2 : Keypoints.inBorder f.pt cols rows 0 = true
    · simp [c1, c2, h1.1, h1.2, Keypoints.searchRadius]
      rfl
    · simp [c1, c2]
  · simp [c1]

/-! ### Windows -/

theorem windows_eq (width height : Nat) : windows width height =
    [⟨0 * (width / 3), 0 * (height / 3), width / 3, height / 3⟩,
     ⟨1 * (width / 3), 0 * (height / 3), width / 3, height / 3⟩,
     ⟨2 * (width / 3), 0 * (height / 3), width / 3, height / 3⟩,
     ⟨0 * (width / 3), 1 * (height / 3), width / 3, height / 3⟩,
     ⟨1 * (width / 3), 1 * (height / 3), width / 3, height / 3⟩,
     ⟨2 * (width / 3), 1 * (height / 3), width / 3, height / 3⟩,
     ⟨0 * (width / 3), 2 * (height / 3), width / 3, height / 3⟩,
     ⟨1 * (width / 3), 2 * (height / 3), width / 3, height / 3⟩,
     ⟨2 * (width / 3), 2 * (height / 3), width / 3, height / 3⟩] := rfl

theorem windows_length (width height : Nat) : (windows width height).length = 9 := rfl

theorem windows_get (width height i : Nat) (w : Window) :
    (windows width height)[i]? = some w ↔
      i < 9 ∧ w = ⟨(i % 3) * (width / 3), (i / 3) * (height / 3), width / 3, height / 3⟩ := by
  rw [windows_eq]
  by_cases h : i < 9
  · have : i = 0 ∨ i = 1 ∨ i = 2 ∨ i = 3 ∨ i = 4 ∨ i = 5 ∨ i = 6 ∨ i = 7 ∨ i = 8 := by omega
    rcases this with rfl | rfl | rfl | rfl | rfl | rfl | rfl | rfl | rfl <;> simp [eq_comm]
  · rw [List.getElem?_eq_none (by simp; omega)]
    simp [h]

theorem contains_iff (w : Window) (p : Pixel) : w.contains p = true ↔
    (w.x : Int) ≤ p.x ∧ p.x < w.x + w.width ∧ (w.y : Int) ≤ p.y ∧ p.y < w.y + w.height := by
  simp [Window.contains]

theorem windows_disjoint {width height i j : Nat} {v w : Window}
    (hi : (windows width height)[i]? = some v) (hj : (windows width height)[j]? = some w) {p : Pixel}
    (hv : v.contains p = true) (hw : w.contains p = true) : i = j := by
  obtain ⟨hi, rfl⟩ := (windows_get ..).1 hi
  obtain ⟨hj, rfl⟩ := (windows_get ..).1 hj
  rw [contains_iff] at hv hw
  obtain ⟨a1, a2, a3, a4⟩ := hv
  obtain ⟨b1, b2, b3, b4⟩ := hw
  dsimp only at *
  have key : ∀ (m n s : Nat) (x : Int), m < 3 → n < 3 → ((m * s : Nat) : Int) ≤ x →
      x < (m * s : Nat) + s → ((n * s : Nat) : Int) ≤ x → x < (n * s : Nat) + s → m = n := by
    intro m n s x hm hn h1 h2 h3 h4
    have : (m = 0 ∨ m = 1 ∨ m = 2) ∧ (n = 0 ∨ n = 1 ∨ n = 2) := by omega
    rcases this with ⟨rfl | rfl | rfl, rfl | rfl | rfl⟩ <;> first | rfl | omega
  have e1 := key (i % 3) (j % 3) (width / 3) p.x (by omega) (by omega) a1 a2 b1 b2
  have e2 := key (i / 3) (j / 3) (height / 3) p.y (by omega) (by omega) a3 a4 b3 b4
  omega

theorem findIdx_window {width height i : Nat} {w : Window} (hi : (windows width height)[i]? = some w)
    {p : Pixel} (hp : w.contains p = true) :
    (windows width height).findIdx? (·.contains p) = some i := by
  rw [List.findIdx?_eq_some_iff_getElem]
  have hl : i < (windows width height).length := by
    rw [windows_length]; exact ((windows_get ..).1 hi).1
  have e : (windows width height)[i] = w := by
    rw [List.getElem?_eq_getElem hl] at hi; exact Option.some.inj hi
  refine ⟨hl, by rw [e]; exact hp, fun j hj hc => ?_⟩
  have := windows_disjoint (List.getElem?_eq_getElem (by omega : j < (windows width height).length)) hi hc hp
  omega

theorem countInWindows_length (ws : List Window) (ps : List Pixel) (counts : List Nat) :
    (countInWindows ws ps counts).length = counts.length := by
  induction ps generalizing counts with
  | nil => rfl
  | cons p ps ih =>
    simp only [countInWindows, ih]
    split <;> simp [increment]

theorem countInWindows_get {width height i : Nat} {w : Window}
    (hi : (windows width height)[i]? = some w) (ps : List Pixel) (counts : List Nat) (c : Nat)
    (hc : counts[i]? = some c) (hb : c + ps.length < 2 ^ 16) :
    (countInWindows (windows width height) ps counts)[i]? = some (c + tracksIn w ps) := by
  induction ps generalizing counts c with
  | nil => simpa [countInWindows, tracksIn] using hc
  | cons p ps ih =>
    simp only [countInWindows]
    simp only [List.length_cons] at hb
    by_cases hp : w.contains p = true
    · rw [findIdx_window hi hp]
      dsimp only
      rw [ih _ (c + 1)]
      · simp [tracksIn, hp]; omega
      · rw [increment, List.getElem?_modify_eq, hc]
        simp only [Option.map_eq_map, Option.map_some, Option.some.injEq]
        rw [Nat.mod_eq_of_lt]
        omega
      · omega
    · rw [ih _ c]
      · simp [tracksIn, hp]
      · split
        · rename_i j hj
          have : j ≠ i := by
            rintro rfl
            rw [List.findIdx?_eq_some_iff_getElem] at hj
            obtain ⟨hl, h1, -⟩ := hj
            rw [List.getElem?_eq_getElem hl] at hi
            rw [Option.some.inj hi] at h1
            exact hp h1
          rw [increment, List.getElem?_modify, hc]; simp [this]
        · exact hc
      · omega

/-! ### Strongest keypoints -/

theorem nthLargest_spec (keys : List Key) (n : Nat) (hn : 0 < n) (hl : n ≤ keys.length) :
    (keys.countP fun k => decide (nthLargest keys n < k.response)) < n ∧
    n ≤ (keys.countP fun k => decide (nthLargest keys n ≤ k.response)) := by
  have cnt : ∀ (q : Int → Bool), (keys.countP fun k => q k.response) =
      ((keys.map (·.response)).insertionSort (fun a b => b ≤ a)).countP q := by
    intro q
    rw [(List.perm_insertionSort (fun a b : Int => b ≤ a) (keys.map (·.response))).countP_eq, List.countP_map]
    rfl
  have hs : ((keys.map (·.response)).insertionSort (fun a b => b ≤ a)).Pairwise (fun a b => b ≤ a) := by
    have : Std.Total (fun a b : Int => b ≤ a) := ⟨fun a b => by omega⟩
    have : IsTrans Int (fun a b : Int => b ≤ a) := ⟨fun a b c => by omega⟩
    exact List.pairwise_insertionSort _ _
  rw [cnt (fun r => decide (nthLargest keys n < r)), cnt (fun r => decide (nthLargest keys n ≤ r))]
  have hlen : ((keys.map (·.response)).insertionSort (fun a b => b ≤ a)).length = keys.length := by simp
  unfold nthLargest
  revert hs hlen
  generalize (keys.map (·.response)).insertionSort (fun a b => b ≤ a) = s
  intro hs hlen
  have hlt : n - 1 < s.length := by omega
  have e : s.getD (n - 1) 0 = s[n - 1] := by simp [hlt]
  rw [e]
  have split : s = s.take (n - 1) ++ s[n - 1] :: s.drop n := by
    have := List.take_append_drop (n - 1) s
    rw [List.drop_eq_getElem_cons hlt] at this
    have h2 : n - 1 + 1 = n := by omega
    rw [h2] at this
    exact this.symm
  have hp := hs
  rw [split, List.pairwise_append, List.pairwise_cons] at hp
  obtain ⟨-, ⟨h2, -⟩, h3⟩ := hp
  generalize ht : s[n - 1] = t at *
  constructor
  · rw [split, List.countP_append, List.countP_cons]
    have z : (s.drop n).countP (fun r => decide (t < r)) = 0 := by
      rw [List.countP_eq_zero]
      intro a ha
      have := h2 a ha
      simp; omega
    rw [z]
    have := List.countP_le_length (p := fun r => decide (t < r)) (l := s.take (n - 1))
    rw [List.length_take] at this
    simp
    omega
  · rw [split, List.countP_append, List.countP_cons]
    have : (s.take (n - 1)).countP (fun r => decide (t ≤ r)) = (s.take (n - 1)).length := by
      rw [List.countP_eq_length]
      intro a ha
      have := h3 a ha t List.mem_cons_self
      simp; omega
    rw [this, List.length_take]
    simp
    omega

theorem retainBest_sublist (keys : List Key) (n : Nat) : (retainBest keys n).Sublist keys := by
  unfold retainBest
  split_ifs
  · exact List.Sublist.refl _
  · exact List.nil_sublist _
  · exact List.filter_sublist

/-- What `retainBest` keeps is stronger than what it drops. -/
theorem retainBest_stronger (keys : List Key) (n : Nat) {a b : Key} (ha : a ∈ retainBest keys n)
    (hb : b ∈ keys) (hn : b ∉ retainBest keys n) : b.response < a.response := by
  unfold retainBest at ha hn
  split_ifs at ha hn with h1 h2
  · exact absurd hb hn
  · simp at ha
  · simp only [List.mem_filter, decide_eq_true_eq] at ha
    have : ¬ nthLargest keys n ≤ b.response := fun h => hn (List.mem_filter.2 ⟨hb, by simpa using h⟩)
    omega

theorem retainBest_length_ge (keys : List Key) (n : Nat) :
    min n keys.length ≤ (retainBest keys n).length := by
  unfold retainBest
  split_ifs with h1 h2
  · omega
  · omega
  · rw [← List.countP_eq_length_filter]
    have := (nthLargest_spec keys n (by omega) (by omega)).2
    omega

theorem retainBest_length_le (keys : List Key) (n : Nat) (hd : (keys.map (·.response)).Nodup) :
    (retainBest keys n).length ≤ n := by
  unfold retainBest
  split_ifs with h1 h2
  · exact h1
  · simp
  · rw [← List.countP_eq_length_filter]
    have := (nthLargest_spec keys n (by omega) (by omega)).1
    have split : (keys.countP fun k => decide (nthLargest keys n ≤ k.response)) ≤
        (keys.countP fun k => decide (nthLargest keys n < k.response)) + 1 := by
      generalize nthLargest keys n = t
      clear this h1
      induction keys with
      | nil => simp
      | cons k ks ih =>
        simp only [List.map_cons, List.nodup_cons] at hd
        have ih := ih hd.2
        rw [List.countP_cons, List.countP_cons]
        by_cases e : k.response = t
        · have z : (ks.countP fun k => decide (t ≤ k.response)) =
              (ks.countP fun k => decide (t < k.response)) := by
            apply List.countP_congr
            intro a ha
            have : a.response ≠ t := fun h => hd.1 (by rw [e, ← h]; exact List.mem_map_of_mem ha)
            simp; omega
          rw [z]
          simp [e]
        · by_cases c : t ≤ k.response
          · have : t < k.response := by omega
            simp [c, this]; omega
          · have : ¬ t < k.response := by omega
            simp [c, this]; omega
    omega

/-! ### Duplicates -/

theorem mem_kept (l : List Key) (k : Key) (i : Nat) :
    (k, i) ∈ (l.zipIdx.filter fun (x : Key × Nat) =>
      !l.zipIdx.any fun (y : Key × Nat) => y.1.pos == x.1.pos &&
        (decide (x.1.response < y.1.response) || (y.1.response == x.1.response && decide (y.2 < x.2)))) ↔
    l[i]? = some k ∧ ∀ j k', l[j]? = some k' → k'.pos = k.pos →
      k'.response ≤ k.response ∧ (k'.response = k.response → i ≤ j) := by
  rw [List.mem_filter, List.mem_zipIdx_iff_getElem?]
  simp only [Bool.not_eq_true', List.any_eq_false, Bool.and_eq_true, Bool.or_eq_true, beq_iff_eq,
    decide_eq_true_eq, Prod.forall, List.mem_zipIdx_iff_getElem?]
  refine and_congr_right fun _ => ⟨fun h j k' hj hp => ?_, fun h k' j hj => ?_⟩
  · have := h k' j hj
    constructor
    · by_contra c; exact this ⟨hp, Or.inl (by omega)⟩
    · intro he; by_contra c; exact this ⟨hp, Or.inr ⟨he, by omega⟩⟩
  · rintro ⟨hp, c | ⟨c, d⟩⟩
    · have := (h j k' hj hp).1; omega
    · have := (h j k' hj hp).2 c; omega

theorem mem_removeDuplicated (l : List Key) (k : Key) : k ∈ removeDuplicated l ↔
    k ∈ l ∧ ∀ k' ∈ l, k'.pos = k.pos → k'.response ≤ k.response := by
  unfold removeDuplicated
  rw [List.mem_map]
  constructor
  · rintro ⟨⟨k1, i⟩, hm, rfl⟩
    obtain ⟨h1, h2⟩ := (mem_kept l k1 i).1 hm
    refine ⟨List.mem_of_getElem? h1, fun k' hk' hp => ?_⟩
    obtain ⟨j, hj⟩ := List.mem_iff_getElem?.1 hk'
    exact (h2 j k' hj hp).1
  · rintro ⟨h1, h2⟩
    refine ⟨(k, l.idxOf k), (mem_kept l k _).2 ⟨?_, fun j k' hj hp => ⟨?_, fun he => ?_⟩⟩, rfl⟩
    · rw [List.getElem?_eq_getElem (List.idxOf_lt_length_of_mem h1), List.getElem_idxOf]
    · exact h2 k' (List.mem_of_getElem? hj) hp
    · have : k' = k := by cases k; cases k'; simp_all
      subst this
      by_contra c
      have hlt : j < l.length := by
        by_contra c2
        rw [List.getElem?_eq_none (by omega)] at hj; cases hj
      rw [List.getElem?_eq_getElem hlt] at hj
      have e : l.findIdx (· == k') = l.idxOf k' := rfl
      have := List.not_of_lt_findIdx (p := (· == k')) (xs := l) (i := j) (by rw [e]; omega)
      simp only [Option.some.inj hj, beq_self_eq_true] at this
      cases this

theorem removeDuplicated_nodup (l : List Key) : ((removeDuplicated l).map (·.pos)).Nodup := by
  unfold removeDuplicated
  rw [List.map_map, List.nodup_iff_pairwise_ne, List.pairwise_map]
  have hp : (l.zipIdx).Pairwise (fun a b => a.2 < b.2) := by
    have : (l.zipIdx.map (·.2)).Pairwise (· < ·) := by
      rw [List.zipIdx_map_snd]
      exact List.pairwise_lt_range'
    rwa [List.pairwise_map] at this
  refine List.Pairwise.imp_of_mem ?_ (hp.filter _)
  rintro ⟨k, i⟩ ⟨k', j⟩ h1 h2 hij he
  dsimp only [Function.comp] at he hij
  obtain ⟨a1, a2⟩ := (mem_kept l k i).1 h1
  obtain ⟨b1, b2⟩ := (mem_kept l k' j).1 h2
  have c1 := (a2 j k' b1 he.symm).1
  have c2 := b2 i k a1 he
  have := c2.2 (by omega)
  omega

theorem removeDuplicated_sublist (l : List Key) : (removeDuplicated l).Sublist l := by
  unfold removeDuplicated
  have := (List.filter_sublist (p := fun (x : Key × Nat) =>
    !l.zipIdx.any fun (k', j) => k'.pos == x.1.pos &&
      (decide (x.1.response < k'.response) || (k'.response == x.1.response && decide (j < x.2))))
    (l := l.zipIdx)).map (·.1)
  simpa using this

/-! ### Whole detection -/

theorem countP_flatMap_le {α β : Type} (q : β → Bool) (f : α → List β) (i : α) (B : Nat)
    (hi : (f i).countP q ≤ B) : ∀ (l : List α), l.Nodup → (∀ j ∈ l, j ≠ i → (f j).countP q = 0) →
      (l.flatMap f).countP q ≤ B
  | [], _, _ => by simp
  | a :: l, hn, h => by
    rw [List.flatMap_cons, List.countP_append]
    obtain ⟨h1, h2⟩ := List.nodup_cons.1 hn
    by_cases e : a = i
    · subst e
      have : (l.flatMap f).countP q = 0 := by
        rw [List.countP_eq_zero]
        intro x hx
        obtain ⟨j, hj, hx⟩ := List.mem_flatMap.1 hx
        have := h j (List.mem_cons_of_mem _ hj) (fun e => h1 (e ▸ hj))
        exact List.countP_eq_zero.1 this x hx
      omega
    · have := h a List.mem_cons_self e
      have := countP_flatMap_le q f i B hi l h2 fun j hj => h j (List.mem_cons_of_mem _ hj)
      omega

theorem length_flatMap_le {α β : Type} (f : α → List β) (B : Nat) (hf : ∀ a, (f a).length ≤ B) :
    ∀ l : List α, (l.flatMap f).length ≤ B * l.length
  | [] => by simp
  | a :: l => by
    rw [List.flatMap_cons, List.length_append, List.length_cons, Nat.mul_succ]
    have := hf a
    have := length_flatMap_le f B hf l
    omega

/-- The keypoints added for window `i`. -/
def part (width height : Nat) (disc : Pixel → Pixel → Bool) (tracked : List Pixel)
    (raw : Nat → Bool → List Key) (i : Nat) : List Key :=
  match (windows width height)[i]?,
      (countInWindows (windows width height) tracked (List.replicate 9 0))[i]? with
  | some w, some already => detectInWindow w already (allowed disc tracked) (raw i)
  | _, _ => []

theorem detect_eq (width height : Nat) (disc : Pixel → Pixel → Bool) (tracked : List Pixel)
    (raw : Nat → Bool → List Key) (order : List Nat) :
    detect width height disc tracked raw order =
      removeDuplicated (order.flatMap (part width height disc tracked raw)) := rfl

theorem part_eq {width height : Nat} (disc : Pixel → Pixel → Bool) (tracked : List Pixel)
    (raw : Nat → Bool → List Key) {i : Nat} {w : Window} (hi : (windows width height)[i]? = some w)
    (ht : tracked.length < 2 ^ 16) :
    part width height disc tracked raw i =
      detectInWindow w (tracksIn w tracked) (allowed disc tracked) (raw i) := by
  have hlt := ((windows_get ..).1 hi).1
  have := countInWindows_get hi tracked (List.replicate 9 0) 0
    (by rw [List.getElem?_replicate, if_pos hlt]) (by omega)
  unfold part
  rw [hi, this]
  dsimp only
  rw [Nat.zero_add]

theorem part_out {width height : Nat} (disc : Pixel → Pixel → Bool) (tracked : List Pixel)
    (raw : Nat → Bool → List Key) {i : Nat} (hi : 9 ≤ i) :
    part width height disc tracked raw i = [] := by
  unfold part
  rw [List.getElem?_eq_none (by rw [windows_length]; exact hi)]

/-- The detector used for a window with `already` tracked points. -/
def useAdvanced (w : Window) (already : Nat) (free : Pixel → Bool) (raw : Bool → List Key) : Bool :=
  decide ((detectMasked w free (raw false)).length < perCell - already)

theorem detectInWindow_eq (w : Window) (already : Nat) (free : Pixel → Bool) (raw : Bool → List Key) :
    detectInWindow w already free raw =
      if already < perCell then
        (retainBest (detectMasked w free (raw (useAdvanced w already free raw)))
          (perCell - already)).map w.toImage
      else [] := by
  unfold detectInWindow useAdvanced
  dsimp only
  by_cases h : (detectMasked w free (raw false)).length < perCell - already <;> simp [h]

theorem toImage_inj (w : Window) {a b : Key} (h : (w.toImage a).pos = (w.toImage b).pos) :
    a.pos = b.pos := by
  simp only [Window.toImage, Pixel.mk.injEq] at h
  cases ha : a.pos; cases hb : b.pos
  simp [ha, hb] at h
  simp [h]

theorem mem_part {width height : Nat} {disc : Pixel → Pixel → Bool} {tracked : List Pixel}
    {raw : Nat → Bool → List Key} {i : Nat} {k : Key}
    (hk : k ∈ part width height disc tracked raw i) :
    ∃ w b r, (windows width height)[i]? = some w ∧ r ∈ raw i b ∧ k = w.toImage r ∧
      allowed disc tracked k.pos = true := by
  unfold part at hk
  split at hk
  · rename_i w already hw _
    rw [detectInWindow_eq] at hk
    split_ifs at hk
    · obtain ⟨r, hr, rfl⟩ := List.mem_map.1 hk
      have := (retainBest_sublist _ _).subset hr
      obtain ⟨h1, h2⟩ := List.mem_filter.1 this
      exact ⟨w, _, r, hw, h1, rfl, h2⟩
    · cases hk
  · cases hk

theorem part_inside {width height : Nat} {disc : Pixel → Pixel → Bool} {tracked : List Pixel}
    {raw : Nat → Bool → List Key} (hr : RawInside width height raw) {i : Nat} {k : Key}
    (hk : k ∈ part width height disc tracked raw i) :
    ∃ w, (windows width height)[i]? = some w ∧ w.contains k.pos = true := by
  obtain ⟨w, b, r, hw, h1, rfl, -⟩ := mem_part hk
  refine ⟨w, hw, ?_⟩
  obtain ⟨a1, a2, a3, a4⟩ := hr i w hw b r h1
  rw [contains_iff]
  simp only [Window.toImage]
  omega

theorem part_positions {width height : Nat} {disc : Pixel → Pixel → Bool} {tracked : List Pixel}
    {raw : Nat → Bool → List Key} (hd : ∀ i b, ((raw i b).map (·.pos)).Nodup) (i : Nat) :
    ((part width height disc tracked raw i).map (·.pos)).Nodup := by
  unfold part
  split
  · rename_i w already _ _
    rw [detectInWindow_eq]
    split_ifs
    · rw [List.map_map, List.nodup_iff_pairwise_ne, List.pairwise_map]
      have h := hd i (useAdvanced w already (allowed disc tracked) (raw i))
      rw [List.nodup_iff_pairwise_ne, List.pairwise_map] at h
      have := List.Pairwise.sublist ((retainBest_sublist _ (perCell - already)).trans
        (List.filter_sublist (p := fun k => allowed disc tracked (w.toImage k).pos))) h
      exact this.imp fun hne he => hne (toImage_inj w he)
    · exact List.nodup_nil
  · exact List.nodup_nil

/-- The keypoints detected in a window are those added for it. -/
theorem mem_detect_window {width height : Nat} {disc : Pixel → Pixel → Bool} {tracked : List Pixel}
    {raw : Nat → Bool → List Key} (hr : RawInside width height raw)
    (hd : ∀ i b, ((raw i b).map (·.pos)).Nodup) {order : List Nat} (ho : Schedule order) {i : Nat}
    {w : Window} (hw : (windows width height)[i]? = some w) (k : Key) :
    k ∈ detect width height disc tracked raw order ∧ w.contains k.pos = true ↔
      k ∈ part width height disc tracked raw i := by
  rw [detect_eq, mem_removeDuplicated]
  constructor
  · rintro ⟨⟨h1, -⟩, h2⟩
    obtain ⟨j, hj, hk⟩ := List.mem_flatMap.1 h1
    obtain ⟨v, hv, hc⟩ := part_inside hr hk
    rw [windows_disjoint hw hv h2 hc]
    exact hk
  · intro hk
    have hi : i ∈ order := ho.mem_iff.2 (List.mem_range.2 ((windows_get ..).1 hw).1)
    obtain ⟨v, hv, hc⟩ := part_inside hr hk
    have e : v = w := by rw [hw] at hv; exact (Option.some.inj hv).symm
    subst e
    refine ⟨⟨List.mem_flatMap.2 ⟨i, hi, hk⟩, fun k' hk' hp => ?_⟩, hc⟩
    obtain ⟨j, hj, hk'⟩ := List.mem_flatMap.1 hk'
    obtain ⟨u, hu, hc'⟩ := part_inside hr hk'
    rw [hp] at hc'
    have := windows_disjoint hv hu hc hc'
    subst this
    have := List.inj_on_of_nodup_map (part_positions hd i) hk' hk hp
    rw [this]

end RgbdSlam.KeypointDetection
