import Verif.Spec.Logger
import Mathlib.Tactic.SplitIfs
import Mathlib.Tactic.Ring
import Mathlib.Data.List.Basic
import Mathlib.Data.List.GetD
/-
The invariant of the log functions.
-/
namespace RgbdSlam.Logger

open Spec

theorem pieces_flatten (m : Message) : (pieces m).flatten = line m := by
  unfold pieces line
  simp only [List.flatten_cons, List.flatten_nil, List.append_nil, List.append_assoc]
  cases m.level <;> rfl

theorem enabled_eq (l : Level) : l.enabled = true := by cases l <;> rfl

/-- The messages of level `l` of a thread that are not completely written. -/
def left (l : Level) (x : Thread) : List Message :=
  (match x.writing with
    | some (m, _) => if m.level = l then [m] else []
    | none => []) ++ x.todo.filter fun m => decide (m.level = l)

/-- The invariant for the level `l`. -/
structure Inv (programs : List (List Message)) (l : Level) (s : State) (order : List (Nat × Message))
    (start : List Char) : Prop where
  content : contentOf s l = (order.map fun x => line x.2).flatten ++ start
  levels : ∀ x ∈ order, x.2.level = l
  threads : ∀ t, (programs.getD t []).filter (fun m => decide (m.level = l)) =
    ((order.filter fun x => decide (x.1 = t)).map (·.2)) ++ left l (s.threads t)
  free : s.holder l = none → start = [] ∧ ∀ t m ps, (s.threads t).writing = some (m, ps) → m.level ≠ l
  held : ∀ h, s.holder l = some h → (∃ m ps done, (s.threads h).writing = some (m, ps) ∧ m.level = l ∧
    pieces m = done ++ ps ∧ start = done.flatten) ∧
      ∀ t m ps, (s.threads t).writing = some (m, ps) → m.level = l → t = h

theorem inv_init (programs : List (List Message)) (l : Level) : Inv programs l (init programs) [] [] := by
  refine ⟨rfl, fun _ h => (List.not_mem_nil h).elim, fun t => ?_, fun _ => ⟨rfl, fun t m ps h => ?_⟩, fun h hh => ?_⟩
  · simp [init, left]
  · simp [init] at h
  · simp [init] at hh

theorem inv_step {programs : List (List Message)} {l : Level} {s s' : State} {t : Nat}
    {order : List (Nat × Message)} {start : List Char} (hi : Inv programs l s order start)
    (h : step t s = some s') : ∃ order' start', Inv programs l s' order' start' := by
  unfold step at h
  split at h
  · rename_i hw
    split at h
    · cases h
    · rename_i m rest htodo
      rw [enabled_eq] at h
      simp only [Bool.not_true, Bool.false_eq_true, if_false] at h
      split_ifs at h with hh
      cases h
      -- the lock is taken
      by_cases hl : m.level = l
      · refine ⟨order, start, hi.content, hi.levels, fun u => ?_, fun hf => ?_, fun k hk => ?_⟩
        · rw [hi.threads u]
          by_cases hu : u = t
          · subst hu
            simp [State.setHolder, State.setThread, left, hw, htodo, hl]
          · simp [State.setHolder, State.setThread, hu]
        · simp [State.setHolder, hl] at hf
        · rw [hl] at hh
          obtain ⟨h1, h2⟩ := hi.free hh
          have hk' : t = k := by simpa [State.setHolder, hl] using hk
          subst hk'
          refine ⟨⟨m, pieces m, [], by simp [State.setHolder, State.setThread], hl, rfl, by simpa using h1⟩, ?_⟩
          intro u m' ps hu hm
          by_contra hne
          simp only [State.setHolder, State.setThread, if_neg hne] at hu
          exact h2 u m' ps hu hm
      · refine ⟨order, start, hi.content, hi.levels, fun u => ?_, fun hf => ?_, fun k hk => ?_⟩
        · rw [hi.threads u]
          by_cases hu : u = t
          · subst hu
            simp [State.setHolder, State.setThread, left, hw, htodo, hl]
          · simp [State.setHolder, State.setThread, hu]
        · have hf' : s.holder l = none := by
            simpa [State.setHolder, Ne.symm hl, State.setThread] using hf
          obtain ⟨h1, h2⟩ := hi.free hf'
          refine ⟨h1, fun u m' ps hu => ?_⟩
          by_cases hut : u = t
          · subst hut
            simp only [State.setHolder, State.setThread, if_true, Option.some.injEq, Prod.mk.injEq] at hu
            rw [← hu.1]; exact hl
          · simp only [State.setHolder, State.setThread, if_neg hut] at hu
            exact h2 u m' ps hu
        · have hk' : s.holder l = some k := by
            simpa [State.setHolder, Ne.symm hl, State.setThread] using hk
          obtain ⟨⟨m', ps, done, h1, h2, h3, h4⟩, h5⟩ := hi.held k hk'
          have hkt : k ≠ t := by
            rintro rfl
            rw [hw] at h1; cases h1
          refine ⟨⟨m', ps, done, by simpa [State.setHolder, State.setThread, hkt] using h1, h2, h3, h4⟩, ?_⟩
          intro u m'' ps' hu hm
          by_cases hut : u = t
          · subst hut
            simp only [State.setHolder, State.setThread, if_true, Option.some.injEq, Prod.mk.injEq] at hu
            rw [← hu.1] at hm
            exact absurd hm hl
          · simp only [State.setHolder, State.setThread, if_neg hut] at hu
            exact h5 u m'' ps' hu hm
  · rename_i m p ps hw
    cases h
    have hleft : ∀ u, left l (if u = t then ⟨(s.threads t).todo, some (m, ps)⟩ else s.threads u) =
        left l (s.threads u) := by
      intro u
      by_cases hu : u = t
      · subst hu; simp [left, hw]
      · simp [hu]
    have hth : ∀ u, (programs.getD u []).filter (fun m => decide (m.level = l)) =
        ((order.filter fun x => decide (x.1 = u)).map (·.2)) ++
          left l (if u = t then ⟨(s.threads t).todo, some (m, ps)⟩ else s.threads u) := by
      intro u
      rw [hleft, hi.threads u]
    by_cases hl : m.level = l
    · -- the holder writes
      have hold : s.holder l = some t := by
        cases hh : s.holder l with
        | none => exact absurd hl ((hi.free hh).2 t m _ hw)
        | some k => rw [(hi.held k hh).2 t m _ hw hl]
      obtain ⟨⟨m', ps', done, h1, h2, h3, h4⟩, h5⟩ := hi.held t hold
      rw [hw] at h1
      obtain ⟨rfl, rfl⟩ : m = m' ∧ p :: ps = ps' := by simpa using h1
      refine ⟨order, start ++ p, ?_, hi.levels, hth, fun hf => ?_, fun k hk => ?_⟩
      · have := hi.content
        unfold contentOf at this ⊢
        simp only [List.filter_append, List.map_append, List.flatten_append]
        rw [this]
        simp [hl]
      · have hf' : s.holder l = none := hf
        rw [hold] at hf'
        cases hf'
      · have hk' : s.holder l = some k := hk
        rw [hold] at hk'
        cases hk'
        refine ⟨⟨m, ps, done ++ [p], by simp [State.setThread], hl, by simpa using h3, by simp [h4]⟩, ?_⟩
        intro u m'' ps'' hu hm
        by_contra hne
        simp only [State.setThread, if_neg hne] at hu
        exact hne (h5 u m'' ps'' hu hm)
    · refine ⟨order, start, ?_, hi.levels, hth, fun hf => ?_, fun k hk => ?_⟩
      · have := hi.content
        unfold contentOf at this ⊢
        simp only [List.filter_append, List.map_append, List.flatten_append]
        rw [this]
        simp [hl]
      · have hf' : s.holder l = none := hf
        obtain ⟨h1, h2⟩ := hi.free hf'
        refine ⟨h1, fun u m' ps' hu => ?_⟩
        by_cases hut : u = t
        · subst hut
          simp only [State.setThread, if_true, Option.some.injEq, Prod.mk.injEq] at hu
          rw [← hu.1]; exact hl
        · simp only [State.setThread, if_neg hut] at hu
          exact h2 u m' ps' hu
      · have hk' : s.holder l = some k := hk
        obtain ⟨⟨m', ps', done, h1, h2, h3, h4⟩, h5⟩ := hi.held k hk'
        have hkt : k ≠ t := by
          rintro rfl
          rw [hw] at h1
          simp only [Option.some.injEq, Prod.mk.injEq] at h1
          rw [← h1.1] at h2
          exact hl h2
        refine ⟨⟨m', ps', done, by simpa [State.setThread, hkt] using h1, h2, h3, h4⟩, ?_⟩
        intro u m'' ps'' hu hm
        by_cases hut : u = t
        · subst hut
          simp only [State.setThread, if_true, Option.some.injEq, Prod.mk.injEq] at hu
          rw [← hu.1] at hm
          exact absurd hm hl
        · simp only [State.setThread, if_neg hut] at hu
          exact h5 u m'' ps'' hu hm
  · rename_i m hw
    cases h
    by_cases hl : m.level = l
    · -- the mutex is released
      have hold : s.holder l = some t := by
        cases hh : s.holder l with
        | none => exact absurd hl ((hi.free hh).2 t m _ hw)
        | some k => rw [(hi.held k hh).2 t m _ hw hl]
      obtain ⟨⟨m', ps', done, h1, h2, h3, h4⟩, h5⟩ := hi.held t hold
      rw [hw] at h1
      obtain ⟨rfl, rfl⟩ : m = m' ∧ [] = ps' := by simpa using h1
      rw [List.append_nil] at h3
      refine ⟨order ++ [(t, m)], [], ?_, ?_, fun u => ?_, fun _ => ⟨rfl, fun u m' ps' hu => ?_⟩, fun k hk => ?_⟩
      · have := hi.content
        rw [h4, ← h3, pieces_flatten] at this
        simpa [contentOf, State.setHolder, State.setThread] using this
      · intro x hx
        rcases List.mem_append.1 hx with hx | hx
        · exact hi.levels x hx
        · rw [List.mem_singleton] at hx
          rw [hx]; exact hl
      · rw [hi.threads u]
        by_cases hu : u = t
        · subst hu
          simp [State.setHolder, State.setThread, left, hw, hl, List.filter_append]
        · simp [State.setHolder, State.setThread, hu, List.filter_append, Ne.symm hu]
      · intro hm
        by_cases hut : u = t
        · subst hut
          simp [State.setHolder, State.setThread] at hu
        · simp only [State.setHolder, State.setThread, if_neg hut] at hu
          exact hut (h5 u m' ps' hu hm)
      · simp [State.setHolder, hl] at hk
    · refine ⟨order, start, ?_, hi.levels, fun u => ?_, fun hf => ?_, fun k hk => ?_⟩
      · exact hi.content
      · rw [hi.threads u]
        by_cases hu : u = t
        · subst hu
          simp [State.setHolder, State.setThread, left, hw, hl]
        · simp [State.setHolder, State.setThread, hu]
      · have hf' : s.holder l = none := by
          simpa [State.setHolder, Ne.symm hl, State.setThread] using hf
        obtain ⟨h1, h2⟩ := hi.free hf'
        refine ⟨h1, fun u m' ps hu => ?_⟩
        by_cases hut : u = t
        · subst hut
          simp [State.setHolder, State.setThread] at hu
        · simp only [State.setHolder, State.setThread, if_neg hut] at hu
          exact h2 u m' ps hu
      · have hk' : s.holder l = some k := by
          simpa [State.setHolder, Ne.symm hl, State.setThread] using hk
        obtain ⟨⟨m', ps, done, h1, h2, h3, h4⟩, h5⟩ := hi.held k hk'
        have hkt : k ≠ t := by
          rintro rfl
          rw [hw] at h1
          simp only [Option.some.injEq, Prod.mk.injEq] at h1
          rw [← h1.1] at h2
          exact hl h2
        refine ⟨⟨m', ps, done, by simpa [State.setHolder, State.setThread, hkt] using h1, h2, h3, h4⟩, ?_⟩
        intro u m'' ps' hu hm
        by_cases hut : u = t
        · subst hut
          simp [State.setHolder, State.setThread] at hu
        · simp only [State.setHolder, State.setThread, if_neg hut] at hu
          exact h5 u m'' ps' hu hm

theorem inv_run {programs : List (List Message)} {l : Level} {sched : List Nat} {s s' : State}
    {order : List (Nat × Message)} {start : List Char} (hi : Inv programs l s order start)
    (h : run sched s = some s') : ∃ order' start', Inv programs l s' order' start' := by
  induction sched generalizing s order start with
  | nil => cases h; exact ⟨order, start, hi⟩
  | cons t ts ih =>
    simp only [run, Option.bind_eq_some_iff] at h
    obtain ⟨s1, h1, h2⟩ := h
    obtain ⟨o1, st1, hi1⟩ := inv_step hi h1
    exact ih hi1 h2

theorem inv_reached {programs : List (List Message)} {sched : List Nat} {s : State}
    (h : run sched (init programs) = some s) (l : Level) : ∃ order start, Inv programs l s order start :=
  inv_run (inv_init programs l) h

/-! ## Number of steps -/

/-- Steps left for a thread. -/
def cost (x : Thread) : Nat :=
  11 * x.todo.length + match x.writing with
    | some (_, ps) => ps.length + 1
    | none => 0

theorem step_cost {t : Nat} {s s' : State} (h : step t s = some s') :
    cost (s.threads t) = cost (s'.threads t) + 1 ∧ ∀ u, u ≠ t → s'.threads u = s.threads u := by
  unfold step at h
  split at h
  · rename_i hw
    split at h
    · cases h
    · rename_i m rest htodo
      rw [enabled_eq] at h
      simp only [Bool.not_true, Bool.false_eq_true, if_false] at h
      split_ifs at h
      cases h
      refine ⟨?_, fun u hu => by simp [State.setHolder, State.setThread, hu]⟩
      simp [State.setHolder, State.setThread, cost, hw, htodo, pieces]
      omega
  · rename_i m p ps hw
    cases h
    refine ⟨?_, fun u hu => by simp [State.setThread, hu]⟩
    simp [State.setThread, cost, hw]
    omega
  · rename_i m hw
    cases h
    refine ⟨?_, fun u hu => by simp [State.setHolder, State.setThread, hu]⟩
    simp [State.setHolder, State.setThread, cost, hw]

/-- Steps left for the first `n` threads. -/
def total : Nat → State → Nat
  | 0, _ => 0
  | n + 1, s => total n s + cost (s.threads n)

theorem total_congr {n : Nat} {s s' : State} (h : ∀ u, u < n → s'.threads u = s.threads u) :
    total n s' = total n s := by
  induction n with
  | zero => rfl
  | succ n ih =>
    rw [total, total, ih fun u hu => h u (by omega), h n (by omega)]

theorem total_step {n t : Nat} {s s' : State} (ht : t < n) (h : step t s = some s') :
    total n s = total n s' + 1 := by
  obtain ⟨h1, h2⟩ := step_cost h
  induction n with
  | zero => omega
  | succ n ih =>
    rw [total, total]
    by_cases htn : t = n
    · subst htn
      rw [total_congr (s := s) fun u hu => h2 u (by omega), h1]
      omega
    · rw [ih (by omega), h2 n (Ne.symm htn)]
      omega

/-- A thread without program makes no step. -/
theorem idle_step {t : Nat} {s : State} (h : s.threads t = ⟨[], none⟩) : step t s = none := by
  unfold step
  rw [h]

theorem run_total {n : Nat} {sched : List Nat} {s s' : State} (hn : ∀ t, n ≤ t → s.threads t = ⟨[], none⟩)
    (h : run sched s = some s') : sched.length + total n s' = total n s ∧
      ∀ t, n ≤ t → s'.threads t = ⟨[], none⟩ := by
  induction sched generalizing s with
  | nil => cases h; exact ⟨by simp, hn⟩
  | cons t ts ih =>
    simp only [run, Option.bind_eq_some_iff] at h
    obtain ⟨s1, h1, h2⟩ := h
    have ht : t < n := by
      by_contra hlt
      rw [idle_step (hn t (by omega))] at h1
      cases h1
    have hn1 : ∀ u, n ≤ u → s1.threads u = ⟨[], none⟩ := fun u hu => by
      rw [(step_cost h1).2 u (by omega)]; exact hn u hu
    obtain ⟨h3, h4⟩ := ih hn1 h2
    refine ⟨?_, h4⟩
    rw [total_step ht h1, ← h3, List.length_cons]
    omega

theorem total_zero {n : Nat} {s : State} (h : ∀ t, (s.threads t).todo = [] ∧ (s.threads t).writing = none) :
    total n s = 0 := by
  induction n with
  | zero => rfl
  | succ n ih => rw [total, ih, cost, (h n).1, (h n).2]; rfl

theorem total_init (programs : List (List Message)) :
    total programs.length (init programs) = 11 * (programs.map List.length).sum := by
  suffices ∀ n, n ≤ programs.length → total n (init programs) = 11 * ((programs.take n).map List.length).sum by
    have := this programs.length (le_refl _)
    rwa [List.take_length] at this
  intro n hn
  induction n with
  | zero => rfl
  | succ n ih =>
    rw [total, ih (by omega), List.take_succ_eq_append_getElem (by omega)]
    simp only [List.map_append, List.sum_append, cost, init, List.map_cons, List.map_nil, List.sum_cons,
      List.sum_nil]
    rw [List.getD_eq_getElem _ _ (by omega)]
    omega

end RgbdSlam.Logger
