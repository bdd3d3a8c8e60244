import Verif.Model.LsdRefine
import Verif.Lemmas.LsdSegments
import Mathlib.Analysis.SpecificLimits.Basic
import Mathlib.Data.List.Perm.Basic
import Mathlib.Tactic.Linarith
import Mathlib.Tactic.Positivity
/-
The refinement of regions keeps the map of used pixels right.
-/
namespace RgbdSlam.Lsd

/-- `l` are the points of a region, the rest of the used pixels are those of `used0`. -/
structure Holds (s : Setting) (used0 : Px → Bool) (l : List Px) (used : Px → Bool) : Prop where
  nodup : l.Nodup
  fresh : ∀ p ∈ l, used0 p = false
  used : ∀ p, used p = true ↔ used0 p = true ∨ p ∈ l
  defined : ∀ p ∈ l, ∃ a, s.angle threshold p = some a

theorem removed_perm {l : List Px} {i : ℕ} (h : i < l.length) (hne : l ≠ []) :
    (l[i] :: (l.set i (l.getLast hne)).dropLast).Perm l := by
  obtain ⟨m, z, rfl⟩ : ∃ m z, l = m ++ [z] := ⟨_, _, (List.dropLast_append_getLast hne).symm⟩
  rw [List.getLast_append_singleton]
  by_cases hi : i < m.length
  · rw [List.getElem_append_left hi, List.set_append_left _ _ hi, List.dropLast_concat]
    have h1 : (m.set i z).Perm (z :: m.eraseIdx i) := List.set_perm_cons_eraseIdx hi z
    have h2 : (m[i] :: m.eraseIdx i).Perm m := List.getElem_cons_eraseIdx_perm hi
    refine ((h1.cons m[i]).trans (List.Perm.swap z m[i] _)).trans ?_
    exact (h2.cons z).trans (List.perm_append_singleton z m).symm
  · have hi' : i = m.length := by
      simp only [List.length_append, List.length_singleton] at h
      omega
    subst hi'
    simpa using (List.perm_append_singleton z m).symm

theorem removeFar_spec (s : Setting) (used0 : Px → Bool) (far : Px → Bool) (i : ℕ) (l : List Px) (used : Px → Bool) :
    Holds s used0 l used → (∀ j (h : j < l.length), j < i → far l[j] = false) →
      let r := removeFar far i l used
      Holds s used0 r.1 r.2 ∧ (∀ p ∈ r.1, far p = false) ∧ (∀ p, p ∈ r.1 ↔ p ∈ l ∧ far p = false) := by
  induction i, l, used using removeFar.induct (far := far) with
  | case1 i l used h hf ih =>
    intro hh hj
    rw [removeFar, dif_pos h, if_pos hf]
    have hne : l ≠ [] := by intro e; simp [e] at h
    have hp := removed_perm h hne
    have hnd := hp.nodup_iff.2 hh.nodup
    rw [List.nodup_cons] at hnd
    have hmem : ∀ p, p ∈ l ↔ p = l[i] ∨ p ∈ (l.set i (l.getLast hne)).dropLast := fun p => by
      rw [← hp.mem_iff, List.mem_cons]
    obtain ⟨a, b, c⟩ := ih ⟨hnd.2, fun p hp => hh.fresh p ((hmem p).2 (Or.inr hp)), fun p => by
        by_cases e : p = l[i]
        · subst e
          simp [hh.fresh _ (List.getElem_mem h), hnd.1]
        · rw [Function.update_of_ne e, hh.used, hmem]
          simp [e], fun p hp => hh.defined p ((hmem p).2 (Or.inr hp))⟩ (by
        intro j hj1 hj2
        rw [List.getElem_dropLast, List.getElem_set_ne (by omega)]
        exact hj j _ hj2)
    refine ⟨a, b, fun p => ?_⟩
    rw [c, hmem]
    constructor
    · rintro ⟨h1, h2⟩
      exact ⟨Or.inr h1, h2⟩
    · rintro ⟨h1 | h1, h2⟩
      · rw [h1, hf] at h2
        cases h2
      · exact ⟨h1, h2⟩
  | case2 i l used h hf ih =>
    intro hh hj
    rw [removeFar, dif_pos h, if_neg hf]
    refine ih hh fun j hj1 hj2 => ?_
    rcases Nat.lt_succ_iff_lt_or_eq.1 hj2 with hj3 | rfl
    · exact hj j hj1 hj3
    · simpa using hf
  | case3 i l used h =>
    intro hh hj
    rw [removeFar, dif_neg h]
    have hall : ∀ p ∈ l, far p = false := by
      intro p hp
      obtain ⟨j, hj1, rfl⟩ := List.mem_iff_getElem.1 hp
      exact hj j hj1 (by omega)
    exact ⟨hh, hall, fun p => ⟨fun hp => ⟨hp, hall p hp⟩, fun hp => hp.1⟩⟩

theorem rectOf_ok (s : Setting) (l : List Px) (theta : ℝ) (hd : ∀ p ∈ l, ∃ a, s.angle threshold p = some a)
    (hn : l.Nodup) (hl : 2 ≤ l.length) : ∃ r, s.rectOf l theta = .ok r := by
  obtain ⟨h1, -, -, r, hr⟩ := rect_of_region s l theta hd hn hl
  exact ⟨r, by unfold Setting.rectOf; rw [h1]; exact hr⟩

/-- Pixels nearer than one pixel to `c` are `c`. -/
theorem px_near (c p : Px) (r : ℝ) (hr : r < 1) (h : distSq c.1 c.2 p.1 p.2 ≤ r) : p = c := by
  unfold distSq at h
  have h1 : (((p.1 : ℤ) - c.1) * ((p.1 : ℤ) - c.1) + ((p.2 : ℤ) - c.2) * ((p.2 : ℤ) - c.2) : ℤ) < 1 := by
    have : (((((p.1 : ℤ) - c.1) * ((p.1 : ℤ) - c.1) + ((p.2 : ℤ) - c.2) * ((p.2 : ℤ) - c.2) : ℤ)) : ℝ) < 1 := by
      push_cast
      linarith
    exact_mod_cast this
  have h2 : (p.1 : ℤ) - c.1 = 0 := by
    by_contra hne
    have := mul_self_nonneg ((p.2 : ℤ) - c.2)
    have := mul_self_pos.2 hne
    omega
  have h3 : (p.2 : ℤ) - c.2 = 0 := by
    by_contra hne
    have := mul_self_nonneg ((p.1 : ℤ) - c.1)
    have := mul_self_pos.2 hne
    omega
  exact Prod.ext (by omega) (by omega)

/-- What a refinement gives. -/
structure Refined (s : Setting) (th : ℝ) (used0 : Px → Bool) (res : Bool × Region Mean × Rect) : Prop where
  holds : Holds s used0 res.2.1.points res.2.1.used
  dense : res.1 = true → 2 ≤ res.2.1.points.length ∧ dense res.2.1.points.length res.2.2 th = true ∧
    ∃ theta, s.rectOf res.2.1.points theta = .ok res.2.2
  failed : res.1 = false → res.2.1.points.length < 2

theorem reduce_ok (s : Setting) (th : ℝ) (c : Px) (used0 : Px → Bool) : ∀ (n : ℕ) (radSq : ℝ) (g : Region Mean) (rec : Rect),
    Holds s used0 g.points g.used → radSq * (9 / 16) ^ n < 1 →
    ∃ res, (∀ fuel, n < fuel → s.reduce th c fuel radSq g rec = .ok res) ∧ Refined s th used0 res ∧
      ∀ p ∈ res.2.1.points, p ∈ g.points := by
  intro n
  induction n with
  | zero =>
    intro radSq g rec hg hr
    obtain ⟨a, b, d⟩ := removeFar_spec s used0 (fun p => decide (radSq * (3 / 4 * (3 / 4)) < distSq c.1 c.2 p.1 p.2)) 0
      g.points g.used hg (by intro j _ hj; omega)
    have hshort : (removeFar (fun p => decide (radSq * (3 / 4 * (3 / 4)) < distSq c.1 c.2 p.1 p.2)) 0
        g.points g.used).1.length < 2 := by
      by_contra hlen
      push Not at hlen
      have hsub : ∀ p ∈ (removeFar (fun p => decide (radSq * (3 / 4 * (3 / 4)) < distSq c.1 c.2 p.1 p.2)) 0
          g.points g.used).1, p = c := by
        intro p hp
        have := b p hp
        rw [decide_eq_false_iff_not, not_lt] at this
        rcases lt_or_ge radSq 0 with h0 | h0
        · exact px_near c p (radSq * (3 / 4 * (3 / 4))) (by linarith) this
        · exact px_near c p (radSq * (3 / 4 * (3 / 4))) (by simp at hr; linarith) this
      have h0 := hsub _ (List.getElem_mem (n := 0) (by omega))
      have h1 := hsub _ (List.getElem_mem (n := 1) (by omega))
      have := (List.Nodup.getElem_inj_iff a.nodup).1 (h0.trans h1.symm)
      omega
    refine ⟨(false, { g with points := _, used := _ }, rec), fun fuel hf => ?_, ⟨a, by simp, fun _ => hshort⟩, fun p hp => ((d p).1 hp).1⟩
    obtain ⟨m, rfl⟩ : ∃ m, fuel = m + 1 := ⟨fuel - 1, by omega⟩
    rw [Setting.reduce]
    dsimp only
    rw [if_pos hshort]
  | succ n ih =>
    intro radSq g rec hg hr
    obtain ⟨a, b, d⟩ := removeFar_spec s used0 (fun p => decide (radSq * (3 / 4 * (3 / 4)) < distSq c.1 c.2 p.1 p.2)) 0
      g.points g.used hg (by intro j _ hj; omega)
    by_cases hshort : (removeFar (fun p => decide (radSq * (3 / 4 * (3 / 4)) < distSq c.1 c.2 p.1 p.2)) 0
        g.points g.used).1.length < 2
    · refine ⟨(false, { g with points := _, used := _ }, rec), fun fuel hf => ?_, ⟨a, by simp, fun _ => hshort⟩, fun p hp => ((d p).1 hp).1⟩
      obtain ⟨m, rfl⟩ : ∃ m, fuel = m + 1 := ⟨fuel - 1, by omega⟩
      rw [Setting.reduce]
      dsimp only
      rw [if_pos hshort]
    · obtain ⟨rec', hrec⟩ := rectOf_ok s _ g.angle.theta a.defined a.nodup (not_lt.1 hshort)
      by_cases hd : dense (removeFar (fun p => decide (radSq * (3 / 4 * (3 / 4)) < distSq c.1 c.2 p.1 p.2)) 0
          g.points g.used).1.length rec' th = true
      · refine ⟨(true, { g with points := _, used := _ }, rec'), fun fuel hf => ?_,
          ⟨a, fun _ => ⟨not_lt.1 hshort, hd, _, hrec⟩, by simp⟩, fun p hp => ((d p).1 hp).1⟩
        obtain ⟨m, rfl⟩ : ∃ m, fuel = m + 1 := ⟨fuel - 1, by omega⟩
        rw [Setting.reduce]
        dsimp only
        rw [if_neg hshort, hrec]
        simp only [Outcome.bind, if_pos hd]
      · obtain ⟨res, e, h1, h2⟩ := ih (radSq * (3 / 4 * (3 / 4))) { g with points := _, used := _ } rec' a (by
          rw [pow_succ'] at hr
          linarith)
        refine ⟨res, fun fuel hf => ?_, h1, fun p hp => ((d p).1 (h2 p hp)).1⟩
        obtain ⟨m, rfl⟩ : ∃ m, fuel = m + 1 := ⟨fuel - 1, by omega⟩
        rw [Setting.reduce]
        dsimp only
        rw [if_neg hshort, hrec]
        simp only [Outcome.bind, if_neg hd]
        exact e m (by omega)

theorem nearby_pos (s : Setting) (c : Px) (width : ℝ) (hw : 0 < width) (l : List Px) :
    (s.nearby c width (c :: l)).2.2 ≠ 0 := by
  have hmono : ∀ (l : List Px) (a : ℝ × ℝ × ℕ), a.2.2 ≤ (l.foldl (fun a p =>
      if Real.sqrt (distSq c.1 c.2 p.1 p.2) < width then
        let d := angleDiffSigned ((s.angle threshold p).getD 0) ((s.angle threshold c).getD 0)
        (a.1 + d, a.2.1 + d * d, a.2.2 + 1)
      else a) a).2.2 := by
    intro l
    induction l with
    | nil => intro a; exact le_rfl
    | cons p l ih =>
      intro a
      rw [List.foldl_cons]
      refine le_trans ?_ (ih _)
      split_ifs
      · exact Nat.le_succ _
      · exact le_rfl
  unfold Setting.nearby
  rw [List.foldl_cons]
  have h0 : Real.sqrt (distSq c.1 c.2 c.1 c.2) < width := by
    simp [distSq, hw]
  rw [if_pos h0]
  have := hmono l (0 + angleDiffSigned ((s.angle threshold c).getD 0) ((s.angle threshold c).getD 0),
    0 + angleDiffSigned ((s.angle threshold c).getD 0) ((s.angle threshold c).getD 0) *
      angleDiffSigned ((s.angle threshold c).getD 0) ((s.angle threshold c).getD 0), 0 + 1)
  dsimp only at this ⊢
  omega

theorem spread_ok (s : Setting) (c : Px) (width : ℝ) (hw : 0 < width) (l : List Px) :
    ∃ tau, s.spread c width (c :: l) = .ok tau := by
  unfold Setting.spread
  have := nearby_pos s c width hw l
  generalize s.nearby c width (c :: l) = x at this
  obtain ⟨a, b, n⟩ := x
  dsimp only at this ⊢
  rw [if_neg this]
  exact ⟨_, rfl⟩

theorem regionToRect_width (atan : ℝ → ℝ → ℝ) (reg : List Weighted) (theta prec : ℝ) (r : Rect)
    (h : regionToRect atan reg theta prec = .ok r) : 0 < r.width := by
  unfold regionToRect at h
  dsimp only at h
  split_ifs at h with h0
  rw [Outcome.map] at h
  cases ht : getTheta atan reg ((sums reg).1 / (sums reg).2.2) ((sums reg).2.1 / (sums reg).2.2) theta prec with
  | ok t =>
    rw [ht] at h
    simp only [Outcome.bind, Outcome.ok.injEq] at h
    rw [← h]
    dsimp only
    split_ifs with hw
    · exact one_pos
    · linarith
  | _ => rw [ht] at h; simp [Outcome.bind] at h

theorem rectOf_width (s : Setting) (l : List Px) (theta : ℝ) (r : Rect) (h : s.rectOf l theta = .ok r) : 0 < r.width := by
  unfold Setting.rectOf at h
  split at h
  · cases h
  · exact regionToRect_width _ _ _ _ _ h

theorem grown_defined_at (s : Setting) (tau : ℝ) (used : Px → Bool) (q : Px) (g : Region Mean)
    (h : Grown (s.ruleAt tau) used q g) (hq : ∃ a, s.angle threshold q = some a) :
    ∀ p ∈ g.points, ∃ a, s.angle threshold p = some a := by
  intro p hp
  obtain ⟨l, e, -, hl⟩ := h.head
  rw [e, List.mem_cons] at hp
  rcases hp with rfl | hp
  · exact hq
  · obtain ⟨l1, l2, rfl⟩ := List.append_of_mem hp
    have := hl l1 p l2 rfl
    exact isAligned_some _ _ _ _ _ _ this

theorem exists_power (r : ℝ) : ∃ n : ℕ, r * (9 / 16) ^ n < 1 := by
  rcases le_or_gt r 0 with h | h
  · exact ⟨0, by simp; linarith⟩
  · obtain ⟨n, hn⟩ := exists_pow_lt_of_lt_one (show (0 : ℝ) < 1 / r by positivity) (show (9 / 16 : ℝ) < 1 by norm_num)
    refine ⟨n, ?_⟩
    rw [lt_div_iff₀ h] at hn
    linarith

theorem loop_mono {A : Type} (r : Rule A) : ∀ (fuel i : ℕ) (g g' : Region A), r.loop fuel i g = .ok g' →
    ∀ k, r.loop (fuel + k) i g = .ok g' := by
  intro fuel
  induction fuel with
  | zero => intro i g g' h; simp [Rule.loop] at h
  | succ n ih =>
    intro i g g' h k
    rw [Nat.succ_add, Rule.loop]
    rw [Rule.loop] at h
    cases hp : g.points[i]? with
    | none => rw [hp] at h; exact h
    | some p =>
      rw [hp] at h
      exact ih _ _ _ h k

/-- A refinement ends, for enough fuel, with a result that does not depend on the fuel. -/
theorem refine_ok (s : Setting) (th : ℝ) (used0 : Px → Bool) (g : Region Mean) (rec : Rect)
    (hg : Holds s used0 g.points g.used) (hl : 2 ≤ g.points.length) (hin : ∀ p ∈ g.points, p.1 < s.width ∧ p.2 < s.height)
    (hrec : ∃ theta, s.rectOf g.points theta = .ok rec) :
    ∃ n res, (∀ fuel, n ≤ fuel → s.refine fuel th g rec = .ok res) ∧ Refined s th used0 res := by
  unfold Setting.refine
  by_cases hd : dense g.points.length rec th = true
  · exact ⟨0, _, fun fuel _ => by rw [if_pos hd], hg, fun _ => ⟨hl, hd, hrec⟩, by simp⟩
  · simp only [if_neg hd]
    obtain ⟨theta, htheta⟩ := hrec
    match hpts : g.points with
    | [] => rw [hpts] at hl; simp at hl
    | c :: rest =>
      obtain ⟨tau, htau⟩ := spread_ok s c rec.width (rectOf_width s _ _ _ htheta) rest
      have hrel : ∀ p, release g.used (c :: rest) p = used0 p := by
        intro p
        unfold release
        have := hg.used p
        rw [hpts] at this
        by_cases hp : p ∈ c :: rest
        · have hf := hg.fresh p (hpts ▸ hp)
          rw [hf]
          simp [hp]
        · have hc : (c :: rest).contains p = false := by simpa using hp
          rw [hc, Bool.not_false, Bool.and_true]
          rcases h0 : used0 p with _ | _
          · rw [← Bool.not_eq_true, this, h0]
            simpa using hp
          · rw [this, h0]
            exact Or.inl rfl
      have hrel' : release g.used (c :: rest) = used0 := funext hrel
      have hc0 : used0 c = false := hg.fresh c (by rw [hpts]; simp)
      obtain ⟨g2, hg2, hgr2⟩ := grow_ok (s.ruleAt tau) (s.width * s.height + 1) (Nat.lt_succ_self _) used0 c
        (hin c (by rw [hpts]; simp)) hc0
      have hg2' : ∀ fuel, s.width * s.height + 1 ≤ fuel → (s.ruleAt tau).grow fuel used0 c = .ok g2 := by
        intro fuel hf
        obtain ⟨k, rfl⟩ := Nat.exists_eq_add_of_le hf
        exact loop_mono _ _ _ _ _ hg2 k
      have hh2 : Holds s used0 g2.points g2.used :=
        ⟨hgr2.nodup, hgr2.fresh, hgr2.used, grown_defined_at s tau used0 c g2 hgr2 (hg.defined c (by rw [hpts]; simp))⟩
      by_cases hshort : g2.points.length < 2
      · refine ⟨s.width * s.height + 1, (false, g2, rec), fun fuel hf => ?_, hh2, by simp, fun _ => hshort⟩
        dsimp only
        rw [htau, hrel']
        simp only [Outcome.bind, hg2' fuel hf, if_pos hshort]
      · obtain ⟨rec2, hrec2⟩ := rectOf_ok s _ g2.angle.theta hh2.defined hh2.nodup (not_lt.1 hshort)
        by_cases hd2 : dense g2.points.length rec2 th = true
        · refine ⟨s.width * s.height + 1, (true, g2, rec2), fun fuel hf => ?_, hh2, fun _ => ⟨not_lt.1 hshort, hd2, _, hrec2⟩, by simp⟩
          dsimp only
          rw [htau, hrel']
          simp only [Outcome.bind, hg2' fuel hf, if_neg hshort, hrec2, if_pos hd2]
        · obtain ⟨n, hn⟩ := exists_power (max (distSq c.1 c.2 rec2.x1 rec2.y1) (distSq c.1 c.2 rec2.x2 rec2.y2))
          obtain ⟨res, e, h1, -⟩ := reduce_ok s th c used0 n _ g2 rec2 hh2 hn
          refine ⟨s.width * s.height + 1 + (n + 1), res, fun fuel hf => ?_, h1⟩
          dsimp only
          rw [htau, hrel']
          simp only [Outcome.bind, hg2' fuel (by omega), if_neg hshort, hrec2, if_neg hd2]
          exact e fuel (by omega)

/-- The lines of a search with refinement. -/
structure Lines (s : Setting) (th : ℝ) (used : Px → Bool) (ls : List (List Px × Rect)) : Prop where
  each : ∀ x ∈ ls, x.1.Nodup ∧ 2 ≤ x.1.length ∧ (∀ p ∈ x.1, used p = false) ∧
    (∀ p ∈ x.1, ∃ a, s.angle threshold p = some a) ∧ dense x.1.length x.2 th = true ∧ ∃ theta, s.rectOf x.1 theta = .ok x.2
  disjoint : ls.Pairwise fun a b => ∀ p ∈ a.1, p ∉ b.1

theorem Lines.mono {s : Setting} {th : ℝ} {used used' : Px → Bool} {ls : List (List Px × Rect)} (h : Lines s th used' ls)
    (hu : ∀ p, used p = true → used' p = true) : Lines s th used ls := by
  refine ⟨fun x hx => ?_, h.disjoint⟩
  obtain ⟨a, b, c, d⟩ := h.each x hx
  refine ⟨a, b, fun p hp => ?_, d⟩
  have h0 := c p hp
  by_contra hne
  rw [Bool.not_eq_false] at hne
  rw [hu p hne] at h0
  exact Bool.noConfusion h0

theorem searchRefined_ok (s : Setting) (minSize : ℕ) (hm : 2 ≤ minSize) (th : ℝ) : ∀ (order : List Px) (used : Px → Bool),
    (∀ p ∈ order, p.1 < s.width ∧ p.2 < s.height) →
    ∃ n ls, (∀ fuel, n ≤ fuel → s.searchRefined fuel minSize th order used = .ok ls) ∧ Lines s th used ls := by
  intro order
  induction order with
  | nil => intro used _; exact ⟨0, [], fun _ _ => rfl, by simp, List.Pairwise.nil⟩
  | cons p l ih =>
    intro used hin
    by_cases hp : (!used p && (s.angle threshold p).isSome) = true
    swap
    · obtain ⟨n, ls, e, h⟩ := ih used fun q hq => hin q (by simp [hq])
      refine ⟨n, ls, fun fuel hf => ?_, h⟩
      rw [Setting.searchRefined, if_neg hp]
      exact e fuel hf
    · rw [Bool.and_eq_true, Bool.not_eq_true'] at hp
      obtain ⟨g, hg, hgr⟩ := grow_ok s.rule (s.width * s.height + 1) (Nat.lt_succ_self _) used p (hin p (by simp)) hp.1
      have hg' : ∀ fuel, s.width * s.height + 1 ≤ fuel → s.rule.grow fuel used p = .ok g := by
        intro fuel hf
        obtain ⟨k, rfl⟩ := Nat.exists_eq_add_of_le hf
        exact loop_mono _ _ _ _ _ hg k
      have hh : Holds s used g.points g.used := ⟨hgr.nodup, hgr.fresh, hgr.used, grown_defined s used p g hgr hp.2⟩
      have hc : (!used p && (s.angle threshold p).isSome) = true := by rw [hp.1, hp.2]; rfl
      have hsub : ∀ q, used q = true → g.used q = true := fun q hq => (hgr.used q).2 (Or.inl hq)
      by_cases hsmall : g.points.length < minSize
      · obtain ⟨n, ls, e, h⟩ := ih g.used fun q hq => hin q (by simp [hq])
        refine ⟨n + (s.width * s.height + 1), ls, fun fuel hf => ?_, h.mono hsub⟩
        rw [Setting.searchRefined, if_pos hc, hg' fuel (by omega)]
        simp only [Outcome.bind, if_pos hsmall]
        exact e fuel (by omega)
      · have h2 : 2 ≤ g.points.length := hm.trans (not_lt.1 hsmall)
        obtain ⟨rec, hrec⟩ := rectOf_ok s _ g.angle.theta hh.defined hh.nodup h2
        obtain ⟨n, res, e, hr⟩ := refine_ok s th used g rec hh h2 hgr.inside ⟨_, hrec⟩
        obtain ⟨n', ls, e', h⟩ := ih res.2.1.used fun q hq => hin q (by simp [hq])
        have hsub' : ∀ q, used q = true → res.2.1.used q = true := fun q hq => (hr.holds.used q).2 (Or.inl hq)
        by_cases hok : res.1 = true
        · refine ⟨n + n' + (s.width * s.height + 1), (res.2.1.points, res.2.2) :: ls, fun fuel hf => ?_, ?_⟩
          · rw [Setting.searchRefined, if_pos hc, hg' fuel (by omega)]
            simp only [Outcome.bind, if_neg hsmall, hrec, e fuel (by omega), if_pos hok, e' fuel (by omega), Outcome.map]
          · obtain ⟨d1, d2, d3⟩ := hr.dense hok
            refine ⟨?_, List.Pairwise.cons ?_ h.disjoint⟩
            · intro x hx
              rcases List.mem_cons.1 hx with rfl | hx
              · exact ⟨hr.holds.nodup, d1, hr.holds.fresh, hr.holds.defined, d2, d3⟩
              · exact (h.mono hsub').each x hx
            · intro x hx q hq hqx
              have h0 := (h.each x hx).2.2.1 q hqx
              rw [(hr.holds.used q).2 (Or.inr hq)] at h0
              exact Bool.noConfusion h0
        · refine ⟨n + n' + (s.width * s.height + 1), ls, fun fuel hf => ?_, h.mono hsub'⟩
          rw [Setting.searchRefined, if_pos hc, hg' fuel (by omega)]
          simp only [Outcome.bind, if_neg hsmall, hrec, e fuel (by omega), if_neg hok, e' fuel (by omega)]

end RgbdSlam.Lsd
