import Mathlib.Data.List.Forall2
import Verif.Lemmas.LsdRect
/-
Lemmas on the segments of an image: the regions of the image of gradients, then their segments.
-/
namespace RgbdSlam.Lsd

open Real

theorem angle_some_norm (s : Setting) (t : ℝ) (p : Px) (a : ℝ) (h : s.angle t p = some a) :
    ∃ n, s.norm p = some n ∧ t < n := by
  unfold Setting.angle at h
  cases e : s.norm p with
  | none => simp [e] at h
  | some n =>
    rw [e] at h
    dsimp only at h
    split_ifs at h with hn
    exact ⟨n, rfl, not_le.1 hn⟩

theorem norm_some_inner (s : Setting) (p : Px) (n : ℝ) (h : s.norm p = some n) :
    p.1 + 1 < s.width ∧ p.2 + 1 < s.height := by
  unfold Setting.norm at h
  split_ifs at h with hi
  simpa [Setting.inner] using hi

/-- The pixels of a region have an angle. -/
theorem grown_defined (s : Setting) (used : Px → Bool) (q : Px) (g : Region Mean) (h : Grown s.rule used q g)
    (hq : (s.angle threshold q).isSome = true) : ∀ p ∈ g.points, ∃ a, s.angle threshold p = some a := by
  intro p hp
  obtain ⟨l, e, -, hl⟩ := h.head
  rw [e, List.mem_cons] at hp
  rcases hp with rfl | hp
  · exact Option.isSome_iff_exists.1 hq
  · obtain ⟨l1, l2, rfl⟩ := List.append_of_mem hp
    have := hl l1 p l2 rfl
    exact isAligned_some _ _ _ _ _ _ this

theorem weighted_eq (s : Setting) (l : List Px) (h : ∀ p ∈ l, ∃ n, s.norm p = some n) :
    s.weighted l = some (l.map fun p => { x := p.1, y := p.2, weight := (s.norm p).getD 0 }) := by
  unfold Setting.weighted
  induction l with
  | nil => rfl
  | cons p l ih =>
    obtain ⟨n, hn⟩ := h p (by simp)
    have := ih fun q hq => h q (by simp [hq])
    rw [List.mapM_cons, this, hn]
    simp [hn]

/-- The pixels of a region with their weights. -/
noncomputable def weights (s : Setting) (l : List Px) : List Weighted :=
  l.map fun p => { x := p.1, y := p.2, weight := (s.norm p).getD 0 }

theorem rect_of_region (s : Setting) (l : List Px) (theta : ℝ) (hd : ∀ p ∈ l, ∃ a, s.angle threshold p = some a)
    (hn : l.Nodup) (hl : 2 ≤ l.length) :
    s.weighted l = some (weights s l) ∧ weights s l ≠ [] ∧ (∀ p ∈ weights s l, 0 < p.weight) ∧
      ∃ r, regionToRect s.atan (weights s l) theta tolerance = .ok r := by
  have hnorm : ∀ p ∈ l, ∃ n, s.norm p = some n ∧ threshold < n := by
    intro p hp
    obtain ⟨a, ha⟩ := hd p hp
    exact angle_some_norm s _ p a ha
  have hw : ∀ p ∈ weights s l, 4 ≤ p.weight := by
    intro p hp
    unfold weights at hp
    obtain ⟨q, hq, rfl⟩ := List.mem_map.1 hp
    obtain ⟨n, e, hgt⟩ := hnorm q hq
    dsimp only
    rw [e, Option.getD_some]
    linarith [threshold_gt]
  have hne : weights s l ≠ [] := by
    unfold weights
    intro e
    rw [List.map_eq_nil_iff] at e
    subst e
    simp at hl
  refine ⟨weighted_eq s l fun p hp => ?_, hne, fun p hp => by linarith [hw p hp], ?_⟩
  · obtain ⟨n, e, -⟩ := hnorm p hp
    exact ⟨n, e⟩
  · match l, hl, hn with
    | a :: b :: l', _, hn' =>
      have hab : a ≠ b := by
        intro e
        rw [e] at hn'
        simp at hn'
      apply regionToRect_run _ _ _ _ hne (fun p hp => by linarith [hw p hp])
      intro x y
      have lattice : ∀ m n : ℕ, m ≠ n → (1 : ℝ) ≤ |(m : ℝ) - n| := by
        intro m n hmn
        have h1 : (1 : ℤ) ≤ |(m : ℤ) - n| := by
          apply Int.one_le_abs
          omega
        exact_mod_cast h1
      refine inertia_ne _ x y hw { x := a.1, y := a.2, weight := (s.norm a).getD 0 }
        { x := b.1, y := b.2, weight := (s.norm b).getD 0 } (by simp [weights]) (by simp [weights]) ?_
      dsimp only
      by_cases h1 : a.1 = b.1
      · right
        apply lattice
        intro h2
        exact hab (Prod.ext h1 h2)
      · left
        exact lattice _ _ h1

/-- The segments of regions of two pixels or more. -/
theorem segments_ok (s : Setting) (scale : ℝ) : ∀ rs : List (Region Mean),
    (∀ g ∈ rs, (∀ p ∈ g.points, ∃ a, s.angle threshold p = some a) ∧ g.points.Nodup ∧ 2 ≤ g.points.length) →
    ∃ l, s.segments scale rs = .ok l ∧ List.Forall₂ (fun g seg => ∃ r,
      regionToRect s.atan (weights s g.points) g.angle.theta tolerance = .ok r ∧ seg = r.segment scale) rs l := by
  intro rs
  induction rs with
  | nil => intro _; exact ⟨[], rfl, List.Forall₂.nil⟩
  | cons g rs ih =>
    intro h
    obtain ⟨l, hl, hf⟩ := ih fun g hg => h g (by simp [hg])
    obtain ⟨h1, h2, h3⟩ := h g (by simp)
    obtain ⟨e, -, -, r, hr⟩ := rect_of_region s g.points g.angle.theta h1 h2 h3
    refine ⟨r.segment scale :: l, ?_, List.Forall₂.cons ⟨r, hr, rfl⟩ hf⟩
    unfold Setting.segments
    rw [e]
    dsimp only
    rw [hr, Outcome.bind_ok, hl]
    rfl

theorem search_inner (s : Setting) (order : List Px) (horder : ∀ p, p ∈ order ↔ p.1 + 1 < s.width ∧ p.2 + 1 < s.height) :
    ∀ p ∈ order, p.1 < s.rule.width ∧ p.2 < s.rule.height := by
  intro p hp
  have := (horder p).1 hp
  exact ⟨by change p.1 < s.width; omega, by change p.2 < s.height; omega⟩

/-- The regions of an image, with the small ones. -/
theorem regions_run (s : Setting) (fuel : ℕ) (hf : s.width * s.height < fuel) (order : List Px)
    (horder : ∀ p, p ∈ order ↔ p.1 + 1 < s.width ∧ p.2 + 1 < s.height) :
    ∃ all, Searched s.rule (fun p => (s.angle threshold p).isSome) order (fun _ => false) all ∧
      s.regions fuel order = .ok (all.filter fun g => decide (minRegionSize s.width s.height ≤ g.points.length)) := by
  obtain ⟨all, e, sp⟩ := search_all s.rule fuel hf (fun p => (s.angle threshold p).isSome) order (fun _ => false)
    (search_inner s order horder)
  refine ⟨all, sp, ?_⟩
  unfold Setting.regions
  rw [search_filter, e]
  rfl

/-- The pixels of the regions that are kept have an angle, are different and at least two. -/
theorem kept_ok (s : Setting) (order : List Px)
    (horder : ∀ p, p ∈ order ↔ p.1 + 1 < s.width ∧ p.2 + 1 < s.height) (all : List (Region Mean))
    (sp : Searched s.rule (fun p => (s.angle threshold p).isSome) order (fun _ => false) all) :
    ∀ g ∈ all.filter fun g => decide (minRegionSize s.width s.height ≤ g.points.length),
      (∀ p ∈ g.points, ∃ a, s.angle threshold p = some a) ∧ g.points.Nodup ∧ 2 ≤ g.points.length := by
  intro g hg
  rw [List.mem_filter, decide_eq_true_eq] at hg
  obtain ⟨u, q, h1, h2, -, h3⟩ := sp.each g hg.1
  have hq := (horder q).1 h1
  refine ⟨grown_defined s u q g h3 h2, h3.nodup, ?_⟩
  exact le_trans (two_le_minRegionSize _ _ (by omega) (by omega)) hg.2

/-- The mean of a region is the direction of the sum of the directions of its pixels. -/
theorem mean_fold (s : Setting) (hat : Spec.ExactAtan s.atan) (q : Px) (a : ℝ) (ha : s.angle threshold q = some a)
    (l : List Px) :
    let m := l.foldl s.rule.join (s.rule.start q)
    m.dx = ((q :: l).map fun p => cos ((s.angle threshold p).getD 0)).sum ∧
      m.dy = ((q :: l).map fun p => sin ((s.angle threshold p).getD 0)).sum ∧ Spec.Points m.theta m.dx m.dy := by
  induction l using List.reverseRecOn with
  | nil =>
    dsimp only
    refine ⟨by simp [Setting.rule], by simp [Setting.rule], ?_⟩
    have hb : 0 ≤ a ∧ a < 2 * π := by
      unfold Setting.angle at ha
      cases e : s.norm q with
      | none => simp [e] at ha
      | some n =>
        rw [e] at ha
        dsimp only at ha
        split_ifs at ha
        rw [Option.some.injEq] at ha
        rw [← ha]
        obtain ⟨h1, h2, -⟩ := hat (s.gradient q).1 (-(s.gradient q).2)
        exact ⟨h1, h2⟩
    simp only [List.foldl_nil, Setting.rule, ha, Option.getD_some]
    exact ⟨hb.1, hb.2, 1, by norm_num, by ring, by ring⟩
  | append_singleton l p ih =>
    dsimp only at ih ⊢
    rw [List.foldl_append, List.foldl_cons, List.foldl_nil]
    obtain ⟨h1, h2, -⟩ := ih
    refine ⟨?_, ?_, ?_⟩
    · simp only [Setting.rule] at h1 ⊢
      rw [h1]
      simp [add_assoc]
    · simp only [Setting.rule] at h2 ⊢
      rw [h2]
      simp [add_assoc]
    · exact hat _ _

theorem angle_bounds (s : Setting) (hat : Spec.ExactAtan s.atan) (q : Px) (a : ℝ) (ha : s.angle threshold q = some a) :
    0 ≤ a ∧ a < 2 * π := by
  obtain ⟨-, -, h1, h2, -⟩ := mean_fold s hat q a ha []
  simp only [List.foldl_nil, Setting.rule, ha, Option.getD_some] at h1 h2
  exact ⟨h1, h2⟩

theorem grown_near (s : Setting) (hat : Spec.ExactAtan s.atan) (used : Px → Bool) (q : Px) (g : Region Mean)
    (h : Grown s.rule used q g) (hq : (s.angle threshold q).isSome = true) (l1 l2 : List Px) (p : Px) (hl1 : l1 ≠ [])
    (e : g.points = l1 ++ p :: l2) :
    ∃ a m, s.angle threshold p = some a ∧
      Spec.Points m (l1.map fun p => cos ((s.angle threshold p).getD 0)).sum
        (l1.map fun p => sin ((s.angle threshold p).getD 0)).sum ∧ Spec.Near tolerance m a := by
  obtain ⟨a0, ha0⟩ := Option.isSome_iff_exists.1 hq
  obtain ⟨l, e', -, hal⟩ := h.head
  obtain ⟨a, ha⟩ := grown_defined s used q g h hq p (by simp [e])
  match l1, hl1 with
  | z :: l1', _ =>
    rw [e'] at e
    simp only [List.cons_append, List.cons.injEq] at e
    obtain ⟨rfl, e2⟩ := e
    have hp := hal l1' p l2 e2
    obtain ⟨h1, h2, h3⟩ := mean_fold s hat q a0 ha0 l1'
    refine ⟨a, (l1'.foldl s.rule.join (s.rule.start q)).theta, ha, ?_, ?_⟩
    · rw [← h1, ← h2]; exact h3
    · have hin := h.inside p (by rw [e', e2]; simp)
      exact (isAligned_iff _ _ _ p _ _ a hin ha tolerance_pos.le tolerance_lt ⟨h3.1, h3.2.1⟩
        (angle_bounds s hat p a ha)).1 hp

/-! ### Images with one direction -/

/-- The growth that takes all the pixels with a direction. -/
def flat (w h : ℕ) (d : Px → Bool) : Rule Unit where
  width := w
  height := h
  start _ := ()
  aligned _ p := d p
  join _ _ := ()

/-- Two regions with the same pixels, the angle of the first being `I`. -/
def Same {A : Type} (I : A → Prop) (g : Region A) (g' : Region Unit) : Prop :=
  g.points = g'.points ∧ g.used = g'.used ∧ I g.angle

section
variable {A : Type} (r : Rule A) (d : Px → Bool) (I : A → Prop)
  (ha : ∀ a p, I a → r.aligned a p = d p) (hj : ∀ a p, I a → d p = true → I (r.join a p))
include ha hj

theorem same_visit (g : Region A) (g' : Region Unit) (h : Same I g g') (p : Px) :
    Same I (r.visit g p) ((flat r.width r.height d).visit g' p) := by
  obtain ⟨h1, h2, h3⟩ := h
  unfold Rule.visit
  rw [ha _ p h3, h2]
  change Same I _ (if !g'.used p && d p then _ else _)
  split_ifs with hc
  · rw [Bool.and_eq_true] at hc
    exact ⟨by simp [h1], rfl, hj _ p h3 hc.2⟩
  · exact ⟨h1, h2, h3⟩

theorem same_fold (l : List Px) : ∀ (g : Region A) (g' : Region Unit), Same I g g' →
    Same I (l.foldl r.visit g) (l.foldl (flat r.width r.height d).visit g') := by
  induction l with
  | nil => intro g g' h; exact h
  | cons p l ih => intro g g' h; exact ih _ _ (same_visit r d I ha hj g g' h p)

theorem same_loop : ∀ (fuel i : ℕ) (g : Region A) (g' G' : Region Unit), Same I g g' →
    (flat r.width r.height d).loop fuel i g' = .ok G' → ∃ G, r.loop fuel i g = .ok G ∧ Same I G G' := by
  intro fuel
  induction fuel with
  | zero => intro i g g' G' h e; simp [Rule.loop] at e
  | succ n ih =>
    intro i g g' G' h e
    unfold Rule.loop at e ⊢
    rw [h.1]
    cases hc : g'.points[i]? with
    | none =>
      rw [hc] at e
      simp only [Outcome.ok.injEq] at e
      subst e
      exact ⟨g, rfl, h⟩
    | some p =>
      rw [hc] at e
      exact ih (i + 1) _ _ G' (same_fold r d I ha hj _ g g' h) e

variable (hs : ∀ p, d p = true → I (r.start p))
include hs

theorem same_search (fuel m : ℕ) : ∀ (order : List Px) (used : Px → Bool) (rs' : List (Region Unit)),
    (flat r.width r.height d).search fuel m d order used = .ok rs' →
    ∃ rs, r.search fuel m d order used = .ok rs ∧ List.Forall₂ (Same I) rs rs' := by
  intro order
  induction order with
  | nil =>
    intro used rs' e
    simp only [Rule.search, Outcome.ok.injEq] at e
    subst e
    exact ⟨[], rfl, List.Forall₂.nil⟩
  | cons p l ih =>
    intro used rs' e
    unfold Rule.search at e ⊢
    split_ifs at e ⊢ with hc
    · obtain ⟨G', hG', e⟩ := Outcome.bind_eq_ok e
      obtain ⟨rest', hr', e⟩ := Outcome.bind_eq_ok e
      rw [Bool.and_eq_true] at hc
      obtain ⟨G, hG, hS⟩ := same_loop r d I ha hj fuel 0
        { points := [p], angle := r.start p, used := Function.update used p true }
        { points := [p], angle := (), used := Function.update used p true } G' ⟨rfl, rfl, hs p hc.2⟩ hG'
      obtain ⟨rest, hr, hF⟩ := ih _ _ hr'
      rw [← hS.2.1] at hr
      have hg : r.grow fuel used p = .ok G := hG
      simp only [Outcome.ok.injEq] at e
      subst e
      rw [hg, Outcome.bind_ok, hr]
      refine ⟨_, rfl, ?_⟩
      rw [hS.1]
      split_ifs
      · exact hF
      · exact List.Forall₂.cons hS hF
    · exact ih _ _ e
end

end RgbdSlam.Lsd
