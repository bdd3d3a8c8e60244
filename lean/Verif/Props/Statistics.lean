import Verif.Spec.Statistics
import Mathlib.Tactic.Linarith
import Mathlib.Tactic.Ring
import Mathlib.Tactic.FieldSimp
import Mathlib.Tactic.NormNum
import Mathlib.Tactic.Positivity
import Mathlib.Algebra.Order.Field.Basic
import Mathlib.Algebra.Order.BigOperators.Group.List
/-
C174: the printed statistics.
-/
namespace RgbdSlam.Statistics

open Spec

/-! ### Durations -/

theorem seconds_nonneg {freq : ℚ} (hf : 0 < freq) {s : Section} (h : s.start ≤ s.stop) :
    0 ≤ s.seconds freq := by
  unfold Section.seconds
  apply div_nonneg _ hf.le
  exact_mod_cast sub_nonneg.2 h

/-- Sections that follow each other do not last longer than the time around them. -/
theorem follow_sum {freq : ℚ} (hf : 0 < freq) (l : List Section) : ∀ {lo hi : ℤ}, Follow lo hi l →
    lo ≤ hi ∧ (∀ s ∈ l, 0 ≤ s.seconds freq) ∧
      (l.map (Section.seconds freq)).sum ≤ (Section.mk lo hi).seconds freq := by
  induction l with
  | nil => exact fun h => ⟨h, by simp, by simpa using seconds_nonneg hf (s := ⟨_, _⟩) h⟩
  | cons s l ih =>
    intro lo hi h
    obtain ⟨h1, h2, h3⟩ := h
    obtain ⟨h4, h5, h6⟩ := ih h3
    refine ⟨by omega, ?_, ?_⟩
    · intro t ht
      rcases List.mem_cons.1 ht with rfl | ht
      · exact seconds_nonneg hf h2
      · exact h5 t ht
    · rw [List.map_cons, List.sum_cons]
      have e : s.seconds freq + (Section.mk s.stop hi).seconds freq = (Section.mk s.start hi).seconds freq := by
        unfold Section.seconds
        rw [← add_div]
        push_cast
        ring
      have e2 : (Section.mk s.start hi).seconds freq ≤ (Section.mk lo hi).seconds freq := by
        unfold Section.seconds
        apply div_le_div_of_nonneg_right _ hf.le
        push_cast
        have : (lo : ℚ) ≤ s.start := by exact_mod_cast h1
        linarith
      linarith

theorem inside_sum {freq : ℚ} (hf : 0 < freq) {s : Section} {l : List Section} (h : Inside s l) :
    s.start ≤ s.stop ∧ (∀ t ∈ l, 0 ≤ t.seconds freq) ∧ (l.map (Section.seconds freq)).sum ≤ s.seconds freq :=
  follow_sum hf l h

theorem sum_toList (freq : ℚ) (s : Option Section) :
    (s.toList.map (Section.seconds freq)).sum = seconds? freq s := by
  cases s <;> simp [seconds?]

theorem seconds?_nonneg {freq : ℚ} {s : Option Section} (h : ∀ t ∈ s.toList, 0 ≤ t.seconds freq) :
    0 ≤ seconds? freq s := by
  cases s with
  | none => simp [seconds?]
  | some t => exact h t (by simp)

/-! ### Counters after a history -/

/-- The seconds of RANSAC of a frame. -/
def ransacTime (freq : ℚ) (f : Frame) : ℚ := seconds? freq (f.ransac.map (·.total))

/-- The seconds of a part of the iterations of a frame. -/
def iterationTime (g : Iteration → ℚ) (f : Frame) : ℚ := ((f.ransac.map fun r => (r.iterations.map g).sum)).getD 0

theorem iterate_sum (freq : ℚ) (l : List Iteration) : ∀ g : Shared, l.foldl (Shared.iterate freq) g =
    { g with
      subset := g.subset + (l.map fun i => i.subset.seconds freq).sum
      solve := g.solve + (l.map fun i => seconds? freq (i.solved.map (·.1))).sum
      inliers := g.inliers + (l.map fun i => seconds? freq (i.solved.map (·.2))).sum } := by
  induction l with
  | nil => intro g; simp
  | cons i l ih =>
    intro g
    rw [List.foldl_cons, ih]
    obtain ⟨s, q⟩ := i
    cases q <;> simp [Shared.iterate, seconds?, add_assoc]

/-- The static counters after some frames. -/
theorem shared_add (freq : ℚ) (g : Shared) (f : Frame) : g.add' freq f =
    { ransac := g.ransac + ransacTime freq f
      variance := g.variance + seconds? freq f.variance
      subset := g.subset + iterationTime (fun i => i.subset.seconds freq) f
      solve := g.solve + iterationTime (fun i => seconds? freq (i.solved.map (·.1))) f
      inliers := g.inliers + iterationTime (fun i => seconds? freq (i.solved.map (·.2))) f } := by
  unfold Shared.add' ransacTime iterationTime
  cases f.ransac with
  | none => simp [seconds?]
  | some r => simp [iterate_sum, seconds?]

theorem shared_sum (freq : ℚ) (l : List (ℕ × Frame)) : ∀ p : Process, (p.run freq l).shared =
    { ransac := p.shared.ransac + (l.map fun e => ransacTime freq e.2).sum
      variance := p.shared.variance + (l.map fun e => seconds? freq e.2.variance).sum
      subset := p.shared.subset + (l.map fun e => iterationTime (fun i => i.subset.seconds freq) e.2).sum
      solve := p.shared.solve +
        (l.map fun e => iterationTime (fun i => seconds? freq (i.solved.map (·.1))) e.2).sum
      inliers := p.shared.inliers +
        (l.map fun e => iterationTime (fun i => seconds? freq (i.solved.map (·.2))) e.2).sum } := by
  induction l with
  | nil => intro p; simp [Process.run]
  | cons e l ih =>
    intro p
    show ((p.track freq e).run freq l).shared = _
    rw [ih]
    simp [Process.track, shared_add, add_assoc]

/-- The counters of an object after a history. -/
theorem objects_sum (freq : ℚ) (i : ℕ) (l : List (ℕ × Frame)) : ∀ p : Process, (p.run freq l).objects i =
    { frames := (p.objects i).frames + (framesOf i l).length
      depth := (p.objects i).depth + ((framesOf i l).map fun f => f.depth.seconds freq).sum
      points := (p.objects i).points + ((framesOf i l).map fun f => f.points.total.seconds freq).sum
      flow := (p.objects i).flow + ((framesOf i l).map fun f => seconds? freq f.points.flow).sum
      detect := (p.objects i).detect + ((framesOf i l).map fun f => seconds? freq f.points.detect).sum
      describe := (p.objects i).describe + ((framesOf i l).map fun f => seconds? freq f.points.describe).sum
      lines := (p.objects i).lines
      primitives := (p.objects i).primitives + ((framesOf i l).map fun f => f.primitives.total.seconds freq).sum
      reset := (p.objects i).reset + ((framesOf i l).map fun f => f.primitives.reset.seconds freq).sum
      init := (p.objects i).init + ((framesOf i l).map fun f => f.primitives.init.seconds freq).sum
      grow := (p.objects i).grow + ((framesOf i l).map fun f => f.primitives.grow.seconds freq).sum
      merge := (p.objects i).merge + ((framesOf i l).map fun f => f.primitives.merge.seconds freq).sum
      refine := (p.objects i).refine + ((framesOf i l).map fun f =>
        f.primitives.planes.seconds freq + f.primitives.cylinders.seconds freq).sum
      find := (p.objects i).find + ((framesOf i l).map fun f => f.find.seconds freq).sum
      update := (p.objects i).update + ((framesOf i l).map fun f => seconds? freq f.update).sum
      add := (p.objects i).add + ((framesOf i l).map fun f => seconds? freq f.add).sum } := by
  induction l with
  | nil => intro p; simp [Process.run, framesOf]
  | cons e l ih =>
    intro p
    show ((p.track freq e).run freq l).objects i = _
    rw [ih]
    by_cases h : e.1 = i
    · have e1 : framesOf i (e :: l) = e.2 :: framesOf i l := by simp [framesOf, h]
      rw [e1]
      simp only [Process.track, h, if_true, Counters.add', List.map_cons, List.sum_cons, List.length_cons]
      congr 1 <;> ring
    · have e1 : framesOf i (e :: l) = framesOf i l := by simp [framesOf, h]
      have h' : i ≠ e.1 := fun x => h x.symm
      rw [e1]
      simp only [Process.track, h', if_false]

/-! ### C174 -/

/-- C174: whatever the objects of the process treat, the lines printed for an object are, in this order, the
means over its own frames of the time of each stage, but for the two stages of the pose, which are the times
of all the objects of the process divided by the number of its own frames.  The time of the lines is always
zero, and nothing is printed for an object that has treated no frame. -/
theorem C174_printed_means (freq : ℚ) (i : ℕ) (l : List (ℕ × Frame)) (mean : ℚ) :
    (Process.run freq {} l).showStatistics i mean =
      if framesOf i l = [] then [] else
        let n : ℚ := (framesOf i l).length
        let m := fun g => meanOf g (framesOf i l)
        [line "image to point cloud treatment" (m fun f => f.depth.seconds freq) mean,
         line "primitive extraction" (m fun f => f.primitives.total.seconds freq) mean,
         line "line extraction" 0 mean,
         line "point extraction" (m fun f => f.points.total.seconds freq) mean,
         line "map update" (m fun f => seconds? freq f.update) mean,
         line "map add features" (m fun f => seconds? freq f.add) mean,
         line "find match" (m fun f => f.find.seconds freq) mean,
         line "pose optimisation with RANSAC"
           ((l.map fun e => seconds? freq (e.2.ransac.map (·.total))).sum / n) mean,
         line "pose variance computation" ((l.map fun e => seconds? freq e.2.variance).sum / n) mean] := by
  unfold Process.showStatistics
  rw [objects_sum, shared_sum]
  by_cases h : framesOf i l = []
  · simp [h]
  · have h' : (framesOf i l).length ≠ 0 := fun x => h (List.length_eq_zero_iff.1 x)
    simp [h, showPrimitives, showLines, showPoints, showMap, showPose, meanOf, ransacTime]

/-- The time of a stage is a share of the time of the frames. -/
theorem percent_bounds {t total : ℚ} (h0 : 0 ≤ t) (h1 : t ≤ total) :
    0 ≤ percent t total ∧ percent t total ≤ 100 := by
  unfold percent
  split_ifs with h
  · norm_num
  · push Not at h
    refine ⟨mul_nonneg (div_nonneg h0 h.le) (by norm_num), ?_⟩
    have : t / total ≤ 1 := (div_le_one h).2 h1
    linarith

/-- Shares of parts that together are not longer than the whole. -/
theorem percent_sum (l : List ℚ) (total : ℚ) (h : l.sum ≤ total) :
    (l.map fun t => percent t total).sum ≤ 100 := by
  unfold percent
  split_ifs with h0
  · simp
  · push Not at h0
    have e : (l.map fun t => t / total * 100).sum = l.sum / total * 100 := by
      clear h
      induction l with
      | nil => simp
      | cons a l ih => simp only [List.map_cons, List.sum_cons, ih]; ring
    rw [e]
    have : l.sum / total ≤ 1 := (div_le_one h0).2 h
    linarith

theorem mean_le {g k : Frame → ℚ} {l : List Frame} (h : ∀ f ∈ l, g f ≤ k f) : meanOf g l ≤ meanOf k l := by
  unfold meanOf
  exact div_le_div_of_nonneg_right (List.sum_le_sum h) (by positivity)

theorem mean_nonneg {g : Frame → ℚ} {l : List Frame} (h : ∀ f ∈ l, 0 ≤ g f) : 0 ≤ meanOf g l := by
  unfold meanOf
  apply div_nonneg _ (by positivity)
  apply List.sum_nonneg
  simpa using h

theorem mean_add (g k : Frame → ℚ) (l : List Frame) : meanOf g l + meanOf k l = meanOf (fun f => g f + k f) l := by
  unfold meanOf
  rw [List.sum_map_add, add_div]

/-- The times of a frame. -/
theorem frame_times {freq : ℚ} (hf : 0 < freq) {f : Frame} (h : Timed f) :
    0 ≤ f.depth.seconds freq ∧ 0 ≤ f.points.total.seconds freq ∧ 0 ≤ f.primitives.total.seconds freq ∧
      0 ≤ f.find.seconds freq ∧ 0 ≤ seconds? freq (f.ransac.map (·.total)) ∧ 0 ≤ seconds? freq f.variance ∧
      0 ≤ seconds? freq f.update ∧ 0 ≤ seconds? freq f.add ∧
      (∀ d ∈ [f.points.total.seconds freq, f.primitives.total.seconds freq],
        f.depth.seconds freq + (d + (f.find.seconds freq + (seconds? freq (f.ransac.map (·.total)) +
          (seconds? freq f.variance + (seconds? freq f.update + seconds? freq f.add))))) ≤
            f.track.seconds freq) := by
  obtain ⟨-, h1, h2⟩ := inside_sum hf h.pointsPath
  obtain ⟨-, h3, h4⟩ := inside_sum hf h.primitivesPath
  simp only [afterDetection, List.map_cons, List.sum_cons, List.map_append, List.sum_append, sum_toList] at h2 h4
  refine ⟨h1 _ (by simp), h1 _ (by simp), h3 _ (by simp), h1 _ (by simp [afterDetection]),
    seconds?_nonneg fun t ht => h1 t ?_, seconds?_nonneg fun t ht => h1 t ?_,
    seconds?_nonneg fun t ht => h1 t ?_, seconds?_nonneg fun t ht => h1 t ?_, ?_⟩
  · simp only [afterDetection, List.mem_cons, List.mem_append]; tauto
  · simp only [afterDetection, List.mem_cons, List.mem_append]; tauto
  · simp only [afterDetection, List.mem_cons, List.mem_append]; tauto
  · simp only [afterDetection, List.mem_cons, List.mem_append]; tauto
  · intro d hd
    simp only [List.mem_cons, List.not_mem_nil, or_false] at hd
    rcases hd with rfl | rfl <;> linarith

/-- C174 (partial: only when the process has a single object): with a clock that never goes back, and the mean
time of the frames given by the caller, every printed percentage is between 0 and 100; leaving out either of
the two detections, which run at the same time, the percentages add up to at most 100. -/
theorem C174_percentages_partial {freq : ℚ} (hf : 0 < freq) (i : ℕ) (l : List (ℕ × Frame))
    (hi : ∀ e ∈ l, e.1 = i) (ht : ∀ e ∈ l, Timed e.2) (mean : ℚ)
    (hm : mean = meanOf (fun f => f.track.seconds freq) (framesOf i l)) :
    (∀ x ∈ (Process.run freq {} l).showStatistics i mean, 0 ≤ x.percent ∧ x.percent ≤ 100) ∧
    total "primitive extraction" ((Process.run freq {} l).showStatistics i mean) ≤ 100 ∧
    total "point extraction" ((Process.run freq {} l).showStatistics i mean) ≤ 100 := by
  have hl : ∀ g : Frame → ℚ, (l.map fun e => g e.2).sum / ((framesOf i l).length : ℚ) = meanOf g (framesOf i l) := by
    intro g
    have : framesOf i l = l.map (·.2) := by
      unfold framesOf
      rw [List.filter_eq_self.2 (by simpa using hi)]
    unfold meanOf
    rw [this, List.map_map]
    rfl
  have hT : ∀ f ∈ framesOf i l, Timed f := by
    intro f hf'
    unfold framesOf at hf'
    obtain ⟨e, he, rfl⟩ := List.mem_map.1 hf'
    exact ht e (List.mem_filter.1 he).1
  rw [C174_printed_means]
  split_ifs with h0
  · simp [total]
  dsimp only
  rw [hl fun f => seconds? freq (f.ransac.map (·.total)), hl fun f => seconds? freq f.variance]
  generalize framesOf i l = fs at hm hT
  have key : ∀ g : Frame → ℚ, (∀ f ∈ fs, 0 ≤ g f ∧ g f ≤ f.track.seconds freq) →
      0 ≤ percent (meanOf g fs) mean ∧ percent (meanOf g fs) mean ≤ 100 := by
    intro g hg
    apply percent_bounds (mean_nonneg fun f h => (hg f h).1)
    rw [hm]
    exact mean_le fun f h => (hg f h).2
  have all : ∀ d : Frame → ℚ, (∀ f ∈ fs, d f ∈ [f.points.total.seconds freq, f.primitives.total.seconds freq]) →
      (([meanOf (fun f => f.depth.seconds freq) fs, meanOf d fs, meanOf (fun f => f.find.seconds freq) fs,
        meanOf (fun f => seconds? freq (f.ransac.map (·.total))) fs, meanOf (fun f => seconds? freq f.variance) fs,
        meanOf (fun f => seconds? freq f.update) fs, meanOf (fun f => seconds? freq f.add) fs] : List ℚ).map
          fun t => percent t mean).sum ≤ 100 := by
    intro d hd
    apply percent_sum
    simp only [List.sum_cons, List.sum_nil, add_zero, mean_add]
    rw [hm]
    refine mean_le fun f h => ?_
    obtain ⟨-, -, -, -, -, -, -, -, h9⟩ := frame_times hf (hT f h)
    exact h9 _ (hd f h)
  have zero : percent 0 mean = 0 := by unfold percent; split_ifs <;> simp
  refine ⟨?_, ?_, ?_⟩
  · intro x hx
    simp only [List.mem_cons, List.not_mem_nil, or_false] at hx
    rcases hx with rfl | rfl | rfl | rfl | rfl | rfl | rfl | rfl | rfl <;> dsimp only [line]
    case inr.inr.inl => rw [zero]; norm_num
    all_goals
      apply key
      intro f h
      obtain ⟨h1, h2, h3, h4, h5, h6, h7, h8, h9⟩ := frame_times hf (hT f h)
      have p := h9 _ (List.mem_cons_self ..)
      have q := h9 (f.primitives.total.seconds freq) (by simp)
      constructor <;> linarith
  · have := all (fun f => f.points.total.seconds freq) (fun f _ => by simp)
    simp only [List.map_cons, List.map_nil, List.sum_cons, List.sum_nil] at this
    simp [total, line, zero]
    linarith
  · have := all (fun f => f.primitives.total.seconds freq) (fun f _ => by simp)
    simp only [List.map_cons, List.map_nil, List.sum_cons, List.sum_nil] at this
    simp [total, line, zero]
    linarith

/-- A frame of ten seconds, with two iterations of RANSAC run at the same time. -/
def busy : Frame where
  track := ⟨0, 100⟩
  depth := ⟨0, 10⟩
  points := ⟨⟨10, 60⟩, some ⟨12, 20⟩, some ⟨20, 40⟩, some ⟨40, 55⟩⟩
  primitives := ⟨⟨10, 58⟩, ⟨10, 11⟩, ⟨11, 20⟩, ⟨20, 40⟩, ⟨40, 45⟩, ⟨45, 55⟩, ⟨55, 57⟩⟩
  find := ⟨60, 65⟩
  ransac := some ⟨⟨65, 85⟩, [⟨⟨65, 68⟩, some (⟨68, 80⟩, ⟨80, 84⟩)⟩, ⟨⟨65, 67⟩, some (⟨67, 81⟩, ⟨81, 84⟩)⟩]⟩
  variance := some ⟨85, 90⟩
  update := some ⟨90, 99⟩
  add := none

/-- The first frame of an object: no pose is computed. -/
def first : Frame where
  track := ⟨200, 210⟩
  depth := ⟨200, 201⟩
  points := ⟨⟨201, 206⟩, none, some ⟨201, 203⟩, some ⟨203, 205⟩⟩
  primitives := ⟨⟨201, 205⟩, ⟨201, 201⟩, ⟨201, 202⟩, ⟨202, 203⟩, ⟨203, 204⟩, ⟨204, 205⟩, ⟨205, 205⟩⟩
  find := ⟨206, 207⟩
  ransac := none
  variance := none
  update := none
  add := some ⟨207, 209⟩

theorem busy_timed : Timed busy := by
  constructor <;> simp [busy, Inside, Follow, afterDetection, iterationSections]

theorem first_timed : Timed first := by
  constructor <;> simp [first, Inside, Follow, afterDetection]

/-- The hypotheses of C174_percentages_partial, for two frames. -/
example : (0 : ℚ) < 10 ∧ (∀ e ∈ [(3, first), (3, busy)], e.1 = 3) ∧ (∀ e ∈ [(3, first), (3, busy)], Timed e.2) ∧
    framesOf 3 [(3, first), (3, busy)] = [first, busy] := by
  refine ⟨by norm_num, by simp, ?_, by simp [framesOf]⟩
  intro e he
  simp only [List.mem_cons, List.not_mem_nil, or_false] at he
  rcases he with rfl | rfl
  · exact first_timed
  · exact busy_timed

/-- C174 is false when the process has several objects: the counters of the pose optimisation are shared, so
that an object that has computed no pose prints that this takes twice the time of its frames. -/
theorem C174_percentages_false : ∃ (l : List (ℕ × Frame)) (mean : ℚ), (∀ e ∈ l, Timed e.2) ∧
    mean = meanOf (fun f => f.track.seconds 10) (framesOf 1 l) ∧ (∀ f ∈ framesOf 1 l, f.ransac = none) ∧
    ⟨"pose optimisation with RANSAC", 2, 200⟩ ∈ (Process.run 10 {} l).showStatistics 1 mean := by
  refine ⟨[(0, busy), (1, first)], 1, ?_, ?_, ?_, ?_⟩
  · intro e he
    simp only [List.mem_cons, List.not_mem_nil, or_false] at he
    rcases he with rfl | rfl
    · exact busy_timed
    · exact first_timed
  · simp [meanOf, framesOf, first, Section.seconds]; norm_num
  · simp [framesOf, first]
  · rw [C174_printed_means]
    simp [framesOf, line, percent, busy, first, seconds?, Section.seconds]
    norm_num

/-- C174 is false of all the lines together: the two detections run at the same time, and each is counted with
the time that it takes. -/
theorem C174_total_false : ∃ (l : List (ℕ × Frame)) (mean : ℚ), (∀ e ∈ l, e.1 = 0 ∧ Timed e.2) ∧
    mean = meanOf (fun f => f.track.seconds 10) (framesOf 0 l) ∧
    total "" ((Process.run 10 {} l).showStatistics 0 mean) = 147 := by
  refine ⟨[(0, busy)], 10, ?_, ?_, ?_⟩
  · intro e he
    simp only [List.mem_cons, List.not_mem_nil, or_false] at he
    subst he
    exact ⟨rfl, busy_timed⟩
  · simp [meanOf, framesOf, busy, Section.seconds]; norm_num
  · rw [C174_printed_means]
    simp [framesOf, line, percent, busy, total, meanOf, seconds?, Section.seconds]
    norm_num

/-! ### The details -/

/-- The sum over frames of parts that fit in a whole. -/
theorem details_sum {fs : List Frame} (parts : List (Frame → ℚ)) (whole : Frame → ℚ)
    (h : ∀ f ∈ fs, (parts.map fun g => g f).sum ≤ whole f) :
    (parts.map fun g => percent (meanOf g fs) (meanOf whole fs)).sum ≤ 100 := by
  have e : (parts.map fun g => percent (meanOf g fs) (meanOf whole fs)) =
      (parts.map fun g => meanOf g fs).map fun t => percent t (meanOf whole fs) := by
    rw [List.map_map]; rfl
  rw [e]
  apply percent_sum
  have e2 : (parts.map fun g => meanOf g fs).sum = meanOf (fun f => (parts.map fun g => g f).sum) fs := by
    clear h e
    induction parts with
    | nil => simp [meanOf]
    | cons g parts ih => simp only [List.map_cons, List.sum_cons, ih, mean_add]
  rw [e2]
  exact mean_le h

/-- The time of the iterations of a frame, run one after the other. -/
theorem iterations_sum (freq : ℚ) (l : List Iteration) :
    ((l.flatMap iterationSections).map (Section.seconds freq)).sum =
      (l.map fun i => i.subset.seconds freq).sum + ((l.map fun i => seconds? freq (i.solved.map (·.1))).sum +
        (l.map fun i => seconds? freq (i.solved.map (·.2))).sum) := by
  induction l with
  | nil => simp
  | cons i l ih =>
    rw [List.flatMap_cons, List.map_append, List.sum_append, ih]
    obtain ⟨s, q⟩ := i
    cases q <;> simp [iterationSections, seconds?] <;> ring

/-- C174 (partial: for the pose, only when the iterations of RANSAC are run one after the other): the details
printed under the point extraction, the primitive extraction and the pose optimisation are shares of that time
that add up to at most 100 percent. -/
theorem C174_details_partial {freq : ℚ} (hf : 0 < freq) (i : ℕ) (l : List (ℕ × Frame))
    (hi : ∀ e ∈ l, e.1 = i) (ht : ∀ e ∈ l, Timed e.2) (hd : ∀ e ∈ l, Deterministic e.2) (mean : ℚ) :
    let p := Process.run freq {} l
    let n := (p.objects i).frames
    total "point extraction" (showPoints (p.objects i) mean n true) ≤ 100 ∧
    total "primitive extraction" (showPrimitives (p.objects i) mean n true) ≤ 100 ∧
    (((showPose p.shared mean n true).filter fun x => x.label ≠ "pose optimisation with RANSAC" ∧
      x.label ≠ "pose variance computation").map (·.percent)).sum ≤ 100 := by
  have hfs : framesOf i l = l.map (·.2) := by
    unfold framesOf
    rw [List.filter_eq_self.2 (by simpa using hi)]
  have hl : ∀ g : Frame → ℚ, (l.map fun e => g e.2).sum / ((framesOf i l).length : ℚ) = meanOf g (framesOf i l) := by
    intro g
    unfold meanOf
    rw [hfs, List.map_map]
    rfl
  have hT : ∀ f ∈ framesOf i l, Timed f ∧ Deterministic f := by
    intro f hf'
    rw [hfs] at hf'
    obtain ⟨e, he, rfl⟩ := List.mem_map.1 hf'
    exact ⟨ht e he, hd e he⟩
  intro p n
  have hn : n = (framesOf i l).length := by
    show ((Process.run freq {} l).objects i).frames = _
    rw [objects_sum]; simp
  have hp : p.objects i = _ := objects_sum freq i l {}
  have hg : p.shared = _ := shared_sum freq l {}
  rw [hp, hg, hn]
  by_cases h0 : framesOf i l = []
  · simp [h0, showPoints, showPrimitives, showPose, total]
  have h0' : (framesOf i l).length ≠ 0 := fun x => h0 (List.length_eq_zero_iff.1 x)
  refine ⟨?_, ?_, ?_⟩
  · have := details_sum (fs := framesOf i l) [fun f => seconds? freq f.points.flow,
      fun f => seconds? freq f.points.detect, fun f => seconds? freq f.points.describe]
      (fun f => f.points.total.seconds freq) (by
        intro f h
        obtain ⟨-, -, h2⟩ := inside_sum hf (hT f h).1.points
        simp only [List.map_append, List.sum_append, sum_toList] at h2
        simp only [List.map_cons, List.map_nil, List.sum_cons, List.sum_nil]
        linarith)
    simp [meanOf] at this
    simp [showPoints, h0, total, line]
    linarith
  · have := details_sum (fs := framesOf i l) [fun f => f.primitives.reset.seconds freq,
      fun f => f.primitives.init.seconds freq, fun f => f.primitives.grow.seconds freq,
      fun f => f.primitives.merge.seconds freq,
      fun f => f.primitives.planes.seconds freq + f.primitives.cylinders.seconds freq]
      (fun f => f.primitives.total.seconds freq) (by
        intro f h
        obtain ⟨-, -, h2⟩ := inside_sum hf (hT f h).1.primitives
        simp only [List.map_cons, List.map_nil, List.sum_cons, List.sum_nil] at h2 ⊢
        linarith)
    simp [meanOf] at this
    simp [showPrimitives, h0, total, line]
    linarith
  · have := details_sum (fs := framesOf i l) [iterationTime fun i => i.subset.seconds freq,
      iterationTime fun i => seconds? freq (i.solved.map (·.1)),
      iterationTime fun i => seconds? freq (i.solved.map (·.2))]
      (ransacTime freq) (by
        intro f h
        have h2 := (hT f h).2
        unfold Deterministic at h2
        unfold iterationTime ransacTime
        cases hr : f.ransac with
        | none => simp [seconds?, hr]
        | some r =>
          obtain ⟨-, -, h3⟩ := inside_sum hf (h2 r hr)
          rw [iterations_sum] at h3
          simpa [seconds?, hr] using h3)
    simp only [← hl, List.map_cons, List.map_nil, List.sum_cons, List.sum_nil] at this
    simp [showPose, h0, line]
    linarith

/-- C174 is false of the details of the pose optimisation when its iterations run at the same time: two
iterations of nearly the whole time give 190 percent. -/
theorem C174_details_false : ∃ l : List (ℕ × Frame), (∀ e ∈ l, e.1 = 0 ∧ Timed e.2) ∧
    (((showPose (Process.run 10 {} l).shared 10 1 true).filter fun x =>
      x.label ≠ "pose optimisation with RANSAC" ∧ x.label ≠ "pose variance computation").map (·.percent)).sum = 190 := by
  refine ⟨[(0, busy)], ?_, ?_⟩
  · intro e he
    simp only [List.mem_cons, List.not_mem_nil, or_false] at he
    subst he
    exact ⟨rfl, busy_timed⟩
  · rw [shared_sum]
    simp [showPose, line, percent, busy, ransacTime, iterationTime, seconds?, Section.seconds]
    norm_num

/-- The hypotheses of C174_details_partial, with two iterations. -/
example : Deterministic { busy with ransac := some ⟨⟨65, 85⟩, [⟨⟨65, 66⟩, none⟩,
    ⟨⟨67, 69⟩, some (⟨69, 80⟩, ⟨80, 84⟩)⟩]⟩ } := by
  intro r hr
  simp only [Option.mem_def, Option.some.injEq] at hr
  subst hr
  simp [Inside, Follow, iterationSections]

end RgbdSlam.Statistics
