import Verif.Model.LsdOrder
import Verif.Props.Lsd
/-
C183: the detector of line segments follows the strongest edges first, whatever it was used for before.
-/
namespace RgbdSlam.Lsd

open Real

/-- The gradient of the strongest edge of the image. -/
def Spec.Strongest (s : Setting) (m : ℝ) : Prop := IsGreatest {n | ∃ p, s.norm p = some n ∧ threshold < n} m

theorem mem_scan (s : Setting) (p : Px) : p ∈ s.scan ↔ p.1 + 1 < s.width ∧ p.2 + 1 < s.height := by
  obtain ⟨x, y⟩ := p
  simp only [Setting.scan, List.mem_flatMap, List.mem_range, List.mem_map, Prod.mk.injEq]
  constructor
  · rintro ⟨a, ha, b, hb, rfl, rfl⟩
    omega
  · rintro ⟨h1, h2⟩
    exact ⟨y, by omega, x, by omega, rfl, rfl⟩

theorem scan_nodup (s : Setting) : s.scan.Nodup := by
  unfold Setting.scan
  rw [List.nodup_flatMap]
  refine ⟨fun y _ => (List.nodup_range).map fun a b h => by simpa using h, ?_⟩
  refine List.nodup_range.imp ?_
  intro a b hab
  simp only [Function.onFun, List.disjoint_left, List.mem_map]
  rintro p ⟨x, -, rfl⟩ ⟨x', -, h⟩
  simp only [Prod.mk.injEq] at h
  exact hab h.2.symm

theorem norm_nonneg (s : Setting) (p : Px) (n : ℝ) (h : s.norm p = some n) : 0 ≤ n := by
  unfold Setting.norm at h
  split_ifs at h
  rw [Option.some.injEq] at h
  rw [← h]
  exact Real.sqrt_nonneg _

theorem norm_some_iff (s : Setting) (p : Px) : (∃ n, s.norm p = some n) ↔ p.1 + 1 < s.width ∧ p.2 + 1 < s.height := by
  constructor
  · rintro ⟨n, hn⟩
    exact norm_some_inner s p n hn
  · intro h
    unfold Setting.norm
    rw [if_pos (by simpa [Setting.inner] using h)]
    exact ⟨_, rfl⟩

/-- The fold of the greatest value. -/
theorem maxFold (s : Setting) (l : List Px) : ∀ m : ℝ,
    let r := l.foldl (fun m p =>
      let n := (s.norm p).getD 0
      if n ≤ threshold then m else if m < n then n else m) m
    m ≤ r ∧ (r = m ∨ ∃ p ∈ l, (s.norm p).getD 0 = r ∧ threshold < r) ∧
      ∀ p ∈ l, threshold < (s.norm p).getD 0 → (s.norm p).getD 0 ≤ r := by
  induction l with
  | nil => intro m; simp
  | cons p l ih =>
    intro m
    simp only [List.foldl_cons]
    obtain ⟨h1, h2, h3⟩ := ih (if (s.norm p).getD 0 ≤ threshold then m else if m < (s.norm p).getD 0 then (s.norm p).getD 0 else m)
    generalize (List.foldl _ _ l : ℝ) = r at h1 h2 h3 ⊢
    split_ifs at h1 h2 h3 with ha hb
    · refine ⟨h1, ?_, ?_⟩
      · rcases h2 with h | ⟨q, hq, h⟩
        · exact Or.inl h
        · exact Or.inr ⟨q, by simp [hq], h⟩
      · intro q hq
        rcases List.mem_cons.1 hq with rfl | hq
        · intro h; linarith
        · exact h3 q hq
    · refine ⟨by linarith, ?_, ?_⟩
      · rcases h2 with h | ⟨q, hq, h⟩
        · exact Or.inr ⟨p, by simp, h.symm, by rw [h]; exact not_le.1 ha⟩
        · exact Or.inr ⟨q, by simp [hq], h⟩
      · intro q hq
        rcases List.mem_cons.1 hq with rfl | hq
        · intro _; exact h1
        · exact h3 q hq
    · refine ⟨h1, ?_, ?_⟩
      · rcases h2 with h | ⟨q, hq, h⟩
        · exact Or.inl h
        · exact Or.inr ⟨q, by simp [hq], h⟩
      · intro q hq
        rcases List.mem_cons.1 hq with rfl | hq
        · intro _; linarith
        · exact h3 q hq

theorem threshold_nonneg : 0 ≤ threshold := by
  unfold threshold
  refine div_nonneg (by norm_num) (Real.sin_nonneg_of_nonneg_of_le_pi ?_ ?_)
  · unfold tolerance; positivity
  · unfold tolerance; nlinarith [Real.pi_pos]

theorem maxGrad_of_strongest (s : Setting) (m : ℝ) (h : Spec.Strongest s m) : s.maxGrad = m ∧ 0 < m := by
  obtain ⟨⟨p, hp, ht⟩, hu⟩ := h
  obtain ⟨h1, h2, h3⟩ := maxFold s s.scan (-1)
  change -1 ≤ s.maxGrad at h1
  change s.maxGrad = -1 ∨ ∃ q ∈ s.scan, (s.norm q).getD 0 = s.maxGrad ∧ threshold < s.maxGrad at h2
  change ∀ q ∈ s.scan, threshold < (s.norm q).getD 0 → (s.norm q).getD 0 ≤ s.maxGrad at h3
  have hm : 0 < m := lt_of_le_of_lt threshold_nonneg ht
  have hle : m ≤ s.maxGrad := by
    have := h3 p ((mem_scan s p).2 ((norm_some_iff s p).1 ⟨m, hp⟩))
    rw [hp] at this
    exact this ht
  refine ⟨le_antisymm ?_ hle, hm⟩
  rcases h2 with h | ⟨q, hq, hq1, hq2⟩
  · linarith
  · obtain ⟨n, hn⟩ := (norm_some_iff s q).2 ((mem_scan s q).1 hq)
    rw [hn] at hq1
    have hq1 : n = s.maxGrad := hq1
    exact hu ⟨q, by rw [hn, hq1], hq2⟩

/-- The bin of a pixel. -/
noncomputable def Setting.bin (s : Setting) (bins : ℕ) (p : Px) : ℤ := ⌊(s.norm p).getD 0 * s.binCoef bins⌋

theorem norm_getD_nonneg (s : Setting) (p : Px) : 0 ≤ (s.norm p).getD 0 := by
  cases h : s.norm p with
  | none => simp
  | some n => exact norm_nonneg s p n h

theorem binCoef_nonneg (s : Setting) (bins : ℕ) : 0 ≤ s.binCoef bins := by
  unfold Setting.binCoef
  split_ifs with h
  · positivity
  · exact le_refl _

/-- No gradient gives a bin out of the integers. -/
theorem value_le (s : Setting) (bins : ℕ) (p : Px) (hp : p ∈ s.scan) :
    (s.norm p).getD 0 * s.binCoef bins ≤ ((bins - 1 : ℕ) : ℝ) := by
  unfold Setting.binCoef
  split_ifs with h
  · have hle : (s.norm p).getD 0 ≤ s.maxGrad := by
      obtain ⟨h1, h2, h3⟩ := maxFold s s.scan (-1)
      change s.maxGrad = -1 ∨ ∃ q ∈ s.scan, (s.norm q).getD 0 = s.maxGrad ∧ threshold < s.maxGrad at h2
      change ∀ q ∈ s.scan, threshold < (s.norm q).getD 0 → (s.norm q).getD 0 ≤ s.maxGrad at h3
      by_cases ht : threshold < (s.norm p).getD 0
      · exact h3 p hp ht
      · rcases h2 with h2 | ⟨q, -, -, h2⟩
        · linarith
        · linarith
    rw [mul_div_assoc', div_le_iff₀ h]
    have : (0 : ℝ) ≤ ((bins - 1 : ℕ) : ℝ) := Nat.cast_nonneg _
    nlinarith
  · simp

theorem normPoint_eq (s : Setting) (bins : ℕ) (hb : bins ≤ 2 ^ 31) (p : Px) (hp : p ∈ s.scan) :
    s.normPoint bins p = .ok (p, s.bin bins p) := by
  have h0 : 0 ≤ (s.norm p).getD 0 * s.binCoef bins := mul_nonneg (norm_getD_nonneg s p) (binCoef_nonneg s bins)
  have h1 := value_le s bins p hp
  unfold Setting.normPoint castInt toInt
  dsimp only
  rw [if_pos h0]
  have h2 : 0 ≤ ⌊(s.norm p).getD 0 * s.binCoef bins⌋ := Int.floor_nonneg.2 h0
  have h3 : ⌊(s.norm p).getD 0 * s.binCoef bins⌋ ≤ ((bins - 1 : ℕ) : ℤ) := by
    have := Int.floor_le ((s.norm p).getD 0 * s.binCoef bins)
    have h4 := this.trans h1
    exact_mod_cast h4
  rw [if_pos ⟨by omega, by omega⟩]
  rfl

theorem pushPoints_eq (s : Setting) (bins : ℕ) (hb : bins ≤ 2 ^ 31) : ∀ (l : List Px), (∀ p ∈ l, p ∈ s.scan) → ∀ before,
    s.pushPoints bins l before = .ok (before ++ l.map fun p => (p, s.bin bins p)) := by
  intro l
  induction l with
  | nil => intro _ before; simp [Setting.pushPoints]
  | cons p l ih =>
    intro h before
    unfold Setting.pushPoints
    rw [normPoint_eq s bins hb p (h p (by simp)), Outcome.bind_ok, ih (fun q hq => h q (by simp [hq]))]
    simp

/-- The points once sorted. -/
theorem ordered_spec (s : Setting) (bins : ℕ) (hb : bins ≤ 2 ^ 31) (sorter : Sorter) :
    ∃ points, s.orderedPoints bins sorter [] = .ok points ∧
      (points.map (·.1)).Nodup ∧ (∀ p, p ∈ points.map (·.1) ↔ p.1 + 1 < s.width ∧ p.2 + 1 < s.height) ∧
      (points.map (·.1)).Pairwise fun p q => s.bin bins q ≤ s.bin bins p := by
  refine ⟨_, by unfold Setting.orderedPoints; rw [pushPoints_eq s bins hb _ (fun _ h => h)]; rfl, ?_⟩
  rw [List.nil_append]
  have hperm := sorter.perm (s.scan.map fun p => (p, s.bin bins p))
  have hsort := sorter.sorted (s.scan.map fun p => (p, s.bin bins p))
  generalize sorter.sort (s.scan.map fun p => (p, s.bin bins p)) = points at hperm hsort
  have hp : (points.map (·.1)).Perm s.scan := by
    have := hperm.map (·.1)
    rwa [List.map_map, show ((fun x : Px × ℤ => x.1) ∘ fun p => (p, s.bin bins p)) = id from rfl, List.map_id] at this
  have hbin : ∀ x ∈ points, x.2 = s.bin bins x.1 := by
    intro x hx
    obtain ⟨p, -, rfl⟩ := List.mem_map.1 (hperm.mem_iff.1 hx)
    rfl
  refine ⟨hp.nodup_iff.2 (scan_nodup s), fun p => by rw [hp.mem_iff, mem_scan], ?_⟩
  rw [List.pairwise_map]
  refine hsort.imp_of_mem ?_
  intro a b ha hb' h
  unfold compareNorm at h
  rw [decide_eq_false_iff_not, not_lt] at h
  rwa [hbin a ha, hbin b hb'] at h

/-- Bins in order, gradients in order up to the size of a bin. -/
theorem lt_of_bin (s : Setting) (bins : ℕ) (hb : 1 < bins) (m : ℝ) (hm : Spec.Strongest s m) (p q : Px) (a b : ℝ)
    (hp : s.norm p = some a) (hq : s.norm q = some b) (h : s.bin bins q ≤ s.bin bins p) : b < a + m / (bins - 1) := by
  obtain ⟨e, h0⟩ := maxGrad_of_strongest s m hm
  unfold Setting.bin Setting.binCoef at h
  rw [hp, hq, e, if_pos h0, Nat.cast_sub hb.le, Nat.cast_one] at h
  simp only [Option.getD_some] at h
  have hk : (0 : ℝ) < (bins : ℝ) - 1 := by
    have : (1 : ℝ) < bins := by exact_mod_cast hb
    linarith
  have h1 := Int.lt_floor_add_one (b * (((bins : ℝ) - 1) / m))
  have h2 := Int.floor_le (a * (((bins : ℝ) - 1) / m))
  have h3 : ((⌊b * (((bins : ℝ) - 1) / m)⌋ : ℤ) : ℝ) ≤ ⌊a * (((bins : ℝ) - 1) / m)⌋ := by exact_mod_cast h
  have h4 : b * (((bins : ℝ) - 1) / m) < a * (((bins : ℝ) - 1) / m) + 1 := by linarith
  have h5 : b * ((bins : ℝ) - 1) < a * ((bins : ℝ) - 1) + m := by
    have := mul_lt_mul_of_pos_right h4 h0
    have e1 : b * (((bins : ℝ) - 1) / m) * m = b * ((bins : ℝ) - 1) := by field_simp
    have e2 : (a * (((bins : ℝ) - 1) / m) + 1) * m = a * ((bins : ℝ) - 1) + m := by field_simp
    linarith
  have h6 : b * ((bins : ℝ) - 1) < (a + m / ((bins : ℝ) - 1)) * ((bins : ℝ) - 1) := by
    rw [add_mul, div_mul_cancel₀ _ hk.ne']
    exact h5
  exact lt_of_mul_lt_mul_right h6 hk.le

/-- The regions start at their first pixel in the order. -/
theorem search_first {A : Type} (r : Rule A) (fuel : ℕ) (hf : r.width * r.height < fuel) (defined : Px → Bool)
    (hdef : ∀ a p, r.aligned a p = true → defined p = true) (R : Px → Px → Prop) (hR : ∀ p, R p p) :
    ∀ (order : List Px) (used : Px → Bool), (∀ p ∈ order, p.1 < r.width ∧ p.2 < r.height) → order.Pairwise R →
      ∀ rs, r.search fuel 0 defined order used = .ok rs →
        (∀ g ∈ rs, ∃ p t, g.points = p :: t ∧ p ∈ order ∧ ∀ q ∈ g.points, used q = false ∧ defined q = true ∧ (q ∈ order → R p q)) ∧
        rs.Pairwise fun g h => ∀ p t, g.points = p :: t → ∀ q ∈ h.points, q ∈ order → R p q := by
  intro order
  induction order with
  | nil =>
    intro used _ _ rs h
    simp only [Rule.search, Outcome.ok.injEq] at h
    subst h
    simp
  | cons p l ih =>
    intro used hin hpair rs h
    rw [List.pairwise_cons] at hpair
    unfold Rule.search at h
    split_ifs at h with hc
    · rw [Bool.and_eq_true, Bool.not_eq_true'] at hc
      obtain ⟨g, hg, gr⟩ := grow_ok r fuel hf used p (hin p (by simp)) hc.1
      rw [hg, Outcome.bind_ok] at h
      obtain ⟨rest, hrest, -⟩ := search_all r fuel hf defined l g.used (fun q hq => hin q (by simp [hq]))
      rw [hrest] at h
      simp only [Outcome.map, Nat.not_lt_zero, if_false, Outcome.bind_ok, Outcome.ok.injEq] at h
      subst h
      obtain ⟨i1, i2⟩ := ih g.used (fun q hq => hin q (by simp [hq])) hpair.2 rest hrest
      obtain ⟨t, et, -, hal⟩ := gr.head
      have hRp : ∀ q ∈ p :: l, R p q := by
        intro q hq
        rcases List.mem_cons.1 hq with rfl | hq
        · exact hR _
        · exact hpair.1 q hq
      refine ⟨?_, ?_⟩
      · intro g' hg'
        rcases List.mem_cons.1 hg' with rfl | hg'
        · refine ⟨p, t, et, by simp, fun q hq => ⟨gr.fresh q hq, ?_, hRp q⟩⟩
          rw [et] at hq
          rcases List.mem_cons.1 hq with rfl | hq
          · exact hc.2
          · obtain ⟨l1, l2, e⟩ := List.append_of_mem hq
            exact hdef _ _ (hal l1 q l2 e)
        · obtain ⟨p', t', e', hp', hall⟩ := i1 g' hg'
          refine ⟨p', t', e', by simp [hp'], fun q hq => ?_⟩
          obtain ⟨a1, a2, a3⟩ := hall q hq
          have hq0 : used q = false := by
            by_contra hne
            rw [Bool.not_eq_false] at hne
            rw [(gr.used q).2 (Or.inl hne)] at a1
            simp at a1
          refine ⟨hq0, a2, fun hq' => ?_⟩
          rcases List.mem_cons.1 hq' with rfl | hq'
          · exfalso
            rw [(gr.used q).2 (Or.inr (by rw [et]; simp))] at a1
            simp at a1
          · exact a3 hq'
      · rw [List.pairwise_cons]
        refine ⟨?_, ?_⟩
        · intro g' _ p' t' e' q _ hq'
          rw [et] at e'
          simp only [List.cons.injEq] at e'
          rw [← e'.1]
          exact hRp q hq'
        · refine i2.imp_of_mem ?_
          intro a b _ hb' hab p' t' e' q hq hq'
          rcases List.mem_cons.1 hq' with rfl | hq'
          · exfalso
            obtain ⟨_, _, _, _, hall⟩ := i1 b hb'
            have a1 := (hall q hq).1
            rw [(gr.used q).2 (Or.inr (by rw [et]; simp))] at a1
            simp at a1
          · exact hab p' t' e' q hq hq'
    · obtain ⟨i1, i2⟩ := ih used (fun q hq => hin q (by simp [hq])) hpair.2 rs h
      have hne : ∀ g ∈ rs, p ∉ g.points := by
        intro g hg hp
        obtain ⟨_, _, _, _, hall⟩ := i1 g hg
        obtain ⟨a1, a2, -⟩ := hall p hp
        simp [a1, a2] at hc
      refine ⟨?_, ?_⟩
      · intro g hg
        obtain ⟨p', t', e', hp', hall⟩ := i1 g hg
        refine ⟨p', t', e', by simp [hp'], fun q hq => ⟨(hall q hq).1, (hall q hq).2.1, fun hq' => ?_⟩⟩
        rcases List.mem_cons.1 hq' with rfl | hq'
        · exact absurd hq (hne g hg)
        · exact (hall q hq).2.2 hq'
      · refine i2.imp_of_mem ?_
        intro a b _ hb' hab p' t' e' q hq hq'
        rcases List.mem_cons.1 hq' with rfl | hq'
        · exact absurd hq (hne b hb')
        · exact hab p' t' e' q hq hq'

/-- A pixel aligned with a region has a direction. -/
theorem aligned_defined (s : Setting) (m : Mean) (p : Px) (h : s.rule.aligned m p = true) :
    (s.angle threshold p).isSome = true := by
  change isAligned (s.angle threshold) s.width s.height p m.theta tolerance = true at h
  unfold isAligned at h
  split_ifs at h
  cases ha : s.angle threshold p with
  | none => rw [ha] at h; simp at h
  | some a => rfl

/-- What is required of a call: each pixel but those of the last row and column is taken once, the stronger edges first. -/
structure Spec.StrongestFirst (s : Setting) (bins : ℕ) (f : Detected) : Prop where
  once : f.order.Nodup
  all : ∀ p, p ∈ f.order ↔ p.1 + 1 < s.width ∧ p.2 + 1 < s.height
  stronger : ∀ m, Spec.Strongest s m → f.order.Pairwise fun p q =>
    ∀ a b, s.norm p = some a → s.norm q = some b → b < a + m / (bins - 1)
  /-- A line is followed from its strongest pixel. -/
  seeds : ∀ m, Spec.Strongest s m → ∀ g ∈ f.regions, ∃ p t, g.points = p :: t ∧
    ∀ q ∈ g.points, ∀ a b, s.norm p = some a → s.norm q = some b → b < a + m / (bins - 1)
  /-- The lines with the strongest pixels are found first. -/
  lines : ∀ m, Spec.Strongest s m → f.regions.Pairwise fun g h => ∃ p ∈ g.points, ∀ q ∈ h.points,
    ∀ a b, s.norm p = some a → s.norm q = some b → b < a + m / (bins - 1)

theorem run_ok (bins : ℕ) (hb : 1 < bins) (hb' : bins ≤ 2 ^ 31) (scale : ℝ) (fuel : ℕ) (c : Call)
    (hf : c.image.width * c.image.height < fuel) :
    ∃ f, c.run bins scale fuel [] = .ok (f, []) ∧ Spec.StrongestFirst c.image bins f ∧
      c.image.detect scale fuel f.order = .ok f.segments := by
  obtain ⟨points, e, h1, h2, h3⟩ := ordered_spec c.image bins hb' c.sorter
  obtain ⟨kept, segments, k1, k2, -⟩ := C148_returns c.image scale (points.map (·.1)) h2 fuel hf
  have k3 : c.image.segments scale kept = .ok segments := by
    unfold Setting.detect at k2
    rwa [k1, Outcome.bind_ok] at k2
  refine ⟨⟨points.map (·.1), kept, segments⟩, ?_, ?_, k2⟩
  · unfold Call.run
    rw [e, Outcome.bind_ok, k1, Outcome.bind_ok, k3, Outcome.bind_ok]
  obtain ⟨all, ea, -⟩ := search_all c.image.rule fuel hf (fun p => (c.image.angle threshold p).isSome) (points.map (·.1))
    (fun _ => false) (search_inner c.image _ h2)
  have ek : kept = all.filter fun g => decide (minRegionSize c.image.width c.image.height ≤ g.points.length) := by
    unfold Setting.regions at k1
    rw [search_filter, ea] at k1
    simpa [Outcome.map] using k1.symm
  obtain ⟨s1, s2⟩ := search_first c.image.rule fuel hf (fun p => (c.image.angle threshold p).isSome)
    (fun a p h => aligned_defined c.image a p h) (fun p q => c.image.bin bins q ≤ c.image.bin bins p) (fun _ => le_refl _)
    (points.map (·.1)) (fun _ => false) (search_inner c.image _ h2) h3 all ea
  have hmem : ∀ q n, c.image.norm q = some n → q ∈ points.map (·.1) := fun q n hn =>
    (h2 q).2 (norm_some_inner c.image q n hn)
  refine ⟨h1, h2, ?_, ?_, ?_⟩
  · intro m hm
    exact h3.imp fun h a b ha hb1 => lt_of_bin c.image bins hb m hm _ _ a b ha hb1 h
  · intro m hm g hg
    simp only [ek] at hg
    obtain ⟨p, t, et, -, hall⟩ := s1 g (List.mem_of_mem_filter hg)
    refine ⟨p, t, et, fun q hq a b ha hb1 => ?_⟩
    exact lt_of_bin c.image bins hb m hm p q a b ha hb1 ((hall q hq).2.2 (hmem q b hb1))
  · intro m hm
    simp only [ek]
    refine (s2.filter _).imp_of_mem ?_
    intro g h hg _ hgh
    obtain ⟨p, t, et, -, -⟩ := s1 g (List.mem_of_mem_filter hg)
    refine ⟨p, by rw [et]; simp, fun q hq a b ha hb1 => ?_⟩
    exact lt_of_bin c.image bins hb m hm p q a b ha hb1 (hgh p t et q hq (hmem q b hb1))

/-- C183: whatever the images given to one detector, one after the other, and however `std::sort` orders equal elements, each
call returns, takes each pixel of its image but the last row and column once, and follows the strongest edges first, up to the
gradient of the strongest edge divided by the number of bins but one.  A call gives what it would give on a new detector. -/
theorem C183_strongest_first (bins : ℕ) (hb : 1 < bins) (hb' : bins ≤ 2 ^ 31) (scale : ℝ) (fuel : ℕ) (calls : List Call)
    (hf : ∀ c ∈ calls, c.image.width * c.image.height < fuel) :
    ∃ found, runCalls bins scale fuel calls [] = .ok found ∧
      List.Forall₂ (fun c f => Spec.StrongestFirst c.image bins f ∧ c.image.detect scale fuel f.order = .ok f.segments ∧
        runCalls bins scale fuel [c] [] = .ok [f]) calls found := by
  induction calls with
  | nil => exact ⟨[], rfl, List.Forall₂.nil⟩
  | cons c l ih =>
    obtain ⟨found, e, h⟩ := ih fun c hc => hf c (by simp [hc])
    obtain ⟨f, ef, h1, h2⟩ := run_ok bins hb hb' scale fuel c (hf c (by simp))
    refine ⟨f :: found, ?_, List.Forall₂.cons ⟨h1, h2, ?_⟩ h⟩
    · unfold runCalls
      rw [ef, Outcome.bind_ok]
      dsimp only
      rw [e]
      rfl
    · unfold runCalls
      rw [ef, Outcome.bind_ok]
      rfl

/-! ## Examples -/

theorem sort_pairwise (l : List (Px × ℤ)) :
    (l.insertionSort fun a b => b.2 ≤ a.2).Pairwise fun a b => compareNorm b a = false := by
  have : IsTrans (Px × ℤ) fun a b => b.2 ≤ a.2 := ⟨fun _ _ _ h1 h2 => le_trans h2 h1⟩
  have : Std.Total (α := Px × ℤ) fun a b => b.2 ≤ a.2 := ⟨fun a b => le_total b.2 a.2⟩
  refine (List.pairwise_insertionSort (fun a b : Px × ℤ => b.2 ≤ a.2) l).imp ?_
  intro a b h
  unfold compareNorm
  rw [decide_eq_false_iff_not, not_lt]
  exact h

/-- The sort by insertion, which `std::sort` does on short lists. -/
def bySort : Sorter where
  sort l := l.insertionSort fun a b => b.2 ≤ a.2
  perm l := List.perm_insertionSort _ l
  sorted := sort_pairwise

/-- Three pixels with gradients, (100, 0), (100, 2) and (270, 2). -/
def three : ℕ → ℕ → ℤ := fun x y =>
  match x, y with
  | 1, 0 => 50 | 1, 1 => 50 | 2, 0 => 99 | 2, 1 => 101 | 3, 0 => 235 | 3, 1 => 235 | _, _ => 0

noncomputable def threeImage : Setting := { width := 4, height := 2, pixel := three, atan := exactAtan }

theorem three_norm0 : threeImage.norm (0, 0) = some 50 := by
  unfold Setting.norm
  rw [if_pos (by decide)]
  have : threeImage.gradient (0, 0) = (100, 0) := by decide
  rw [this]
  norm_num
  rw [show (2500 : ℝ) = 50 ^ 2 by norm_num, Real.sqrt_sq (by norm_num)]

theorem three_norm1 : threeImage.norm (1, 0) = some √2501 := by
  unfold Setting.norm
  rw [if_pos (by decide)]
  have : threeImage.gradient (1, 0) = (100, -2) ∨ threeImage.gradient (1, 0) = (100, 2) := by decide
  rcases this with h | h <;> rw [h] <;> norm_num

theorem three_norm2 : threeImage.norm (2, 0) = some √18226 := by
  unfold Setting.norm
  rw [if_pos (by decide)]
  have : threeImage.gradient (2, 0) = (270, -2) ∨ threeImage.gradient (2, 0) = (270, 2) := by decide
  rcases this with h | h <;> rw [h] <;> norm_num

theorem three_scan : threeImage.scan = [(0, 0), (1, 0), (2, 0)] := by decide

theorem threshold_lt_fifty : threshold < 50 := by
  unfold threshold
  have h : (1 / 16 : ℝ) < sin tolerance := by
    have h1 : 0 ≤ tolerance := by unfold tolerance; positivity
    have h2 : tolerance ≤ π / 2 := by unfold tolerance; nlinarith [Real.pi_pos]
    have := Real.mul_le_sin h1 h2
    have e : 2 / π * tolerance = 1 / 4 := by
      unfold tolerance
      field_simp
      norm_num
    linarith
  rw [div_lt_iff₀ (by linarith)]
  linarith

theorem sqrt_bounds : (50 : ℝ) < √2501 ∧ √2501 < 50.011 ∧ 135 < √18226 ∧ √18226 < 135.01 :=
  ⟨Real.lt_sqrt_of_sq_lt (by norm_num), (Real.sqrt_lt' (by norm_num)).2 (by norm_num), Real.lt_sqrt_of_sq_lt (by norm_num),
    (Real.sqrt_lt' (by norm_num)).2 (by norm_num)⟩

theorem three_strongest : Spec.Strongest threeImage √18226 := by
  obtain ⟨b1, b2, b3, b4⟩ := sqrt_bounds
  have ht := threshold_lt_fifty
  refine ⟨⟨(2, 0), three_norm2, by linarith⟩, ?_⟩
  rintro n ⟨p, hp, -⟩
  have hm := (mem_scan threeImage p).2 ((norm_some_iff threeImage p).1 ⟨n, hp⟩)
  rw [three_scan] at hm
  simp only [List.mem_cons, List.not_mem_nil, or_false] at hm
  rcases hm with rfl | rfl | rfl
  · rw [three_norm0, Option.some.injEq] at hp; linarith
  · rw [three_norm1, Option.some.injEq] at hp; linarith
  · rw [three_norm2, Option.some.injEq] at hp; linarith

theorem three_bins : threeImage.bin 1024 (0, 0) = 378 ∧ threeImage.bin 1024 (1, 0) = 378 ∧ threeImage.bin 1024 (2, 0) = 1023 := by
  obtain ⟨b1, b2, b3, b4⟩ := sqrt_bounds
  obtain ⟨e, h0⟩ := maxGrad_of_strongest _ _ three_strongest
  unfold Setting.bin Setting.binCoef
  rw [e, if_pos h0, three_norm0, three_norm1, three_norm2]
  simp only [Option.getD_some]
  have h1023 : ((1024 - 1 : ℕ) : ℝ) = 1023 := by norm_num
  rw [h1023]
  refine ⟨?_, ?_, ?_⟩
  · rw [Int.floor_eq_iff, mul_div_assoc', le_div_iff₀ h0, div_lt_iff₀ h0]
    push_cast
    constructor <;> linarith
  · rw [Int.floor_eq_iff, mul_div_assoc', le_div_iff₀ h0, div_lt_iff₀ h0]
    push_cast
    constructor <;> linarith
  · rw [mul_div_assoc', mul_comm, mul_div_assoc, div_self h0.ne']
    norm_num

theorem three_order : ∃ points, threeImage.orderedPoints 1024 bySort [] = .ok points ∧
    points.map (·.1) = [(2, 0), (0, 0), (1, 0)] := by
  refine ⟨_, by unfold Setting.orderedPoints; rw [pushPoints_eq _ 1024 (by norm_num) _ (fun _ h => h)]; rfl, ?_⟩
  obtain ⟨h1, h2, h3⟩ := three_bins
  rw [three_scan]
  simp only [List.map_cons, List.map_nil, h1, h2, h3, List.nil_append]
  decide

/-- C183: the order is not exactly that of the gradients: with the 1024 bins of the program a pixel may be taken before a pixel with
a stronger gradient. -/
theorem C183_exact_false : ¬ ∀ (scale : ℝ) (fuel : ℕ) (c : Call), c.image.width * c.image.height < fuel →
    ∀ found, runCalls 1024 scale fuel [c] [] = .ok found → ∀ f ∈ found, f.order.Pairwise fun p q =>
      ∀ a b, c.image.norm p = some a → c.image.norm q = some b → b ≤ a := by
  intro h
  obtain ⟨f, ef, -⟩ := run_ok 1024 (by norm_num) (by norm_num) 1 9 ⟨threeImage, bySort⟩ (by decide)
  obtain ⟨points, ep, eo⟩ := three_order
  have hrun : runCalls 1024 1 9 [⟨threeImage, bySort⟩] [] = .ok [f] := by
    unfold runCalls
    rw [ef, Outcome.bind_ok]
    rfl
  have ho : f.order = [(2, 0), (0, 0), (1, 0)] := by
    unfold Call.run at ef
    rw [ep, Outcome.bind_ok, Outcome.bind_eq_ok_iff] at ef
    obtain ⟨regions, -, ef⟩ := ef
    rw [Outcome.bind_eq_ok_iff] at ef
    obtain ⟨segments, -, ef⟩ := ef
    rw [Outcome.ok.injEq, Prod.mk.injEq] at ef
    rw [← ef.1, ← eo]
  have := h 1 9 ⟨threeImage, bySort⟩ (by decide) [f] hrun f (by simp)
  rw [ho] at this
  simp only [List.pairwise_cons, List.mem_cons, List.not_mem_nil, or_false] at this
  have := this.2.1 (1, 0) rfl 50 √2501 three_norm0 three_norm1
  linarith [sqrt_bounds.1]

/-- The claim is met with an image that has edges, given twice to a detector. -/
example : ∃ found, runCalls 1024 1 9 [⟨threeImage, bySort⟩, ⟨threeImage, bySort⟩] [] = .ok found ∧ found.length = 2 ∧
    Spec.Strongest threeImage √18226 := by
  obtain ⟨found, e, h⟩ := C183_strongest_first 1024 (by norm_num) (by norm_num) 1 9
    [⟨threeImage, bySort⟩, ⟨threeImage, bySort⟩] (by
      intro c hc
      simp only [List.mem_cons, List.not_mem_nil, or_false, or_self] at hc
      subst hc
      decide)
  exact ⟨found, e, h.length_eq.symm, three_strongest⟩

end RgbdSlam.Lsd
