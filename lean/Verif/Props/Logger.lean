import Verif.Lemmas.Logger
/-
C150: the lines written by the log functions, for any number of threads and every schedule.
-/
namespace RgbdSlam.Logger

open Spec

/-- C150 for one function: at every moment, what the calls of one log function wrote is a sequence of whole
lines, those of the calls that have returned, followed by a beginning of the line of the call that holds the
mutex, if any; and every thread finds its calls of that function in its own order, none lost and none twice:
those written, the one it is in, those to come. -/
theorem C150_one_level_partial (programs : List (List Message)) (sched : List Nat) (s : State)
    (h : run sched (init programs) = some s) (l : Level) :
    ∃ (order : List (Nat × Message)) (start : List Char),
      contentOf s l = (order.map fun x => line x.2).flatten ++ start ∧
      (∀ x ∈ order, x.2.level = l) ∧
      (start = [] ∨ ∃ t m ps rest, (s.threads t).writing = some (m, ps) ∧ m.level = l ∧ line m = start ++ rest) ∧
      ∀ t, (programs.getD t []).filter (fun m => decide (m.level = l)) =
        (order.filter fun x => decide (x.1 = t)).map (·.2) ++
          ((s.threads t).writing.toList.map (·.1)).filter (fun m => decide (m.level = l)) ++
          (s.threads t).todo.filter fun m => decide (m.level = l) := by
  obtain ⟨order, start, hi⟩ := inv_reached h l
  refine ⟨order, start, hi.content, hi.levels, ?_, fun t => ?_⟩
  · cases hh : s.holder l with
    | none => exact .inl (hi.free hh).1
    | some k =>
      obtain ⟨⟨m, ps, done, h1, h2, h3, h4⟩, -⟩ := hi.held k hh
      refine .inr ⟨k, m, ps, ps.flatten, h1, h2, ?_⟩
      rw [← pieces_flatten, h3, h4, List.flatten_append]
  · rw [hi.threads t, left]
    cases (s.threads t).writing with
    | none => simp
    | some x => by_cases hx : x.1.level = l <;> simp [hx]

/-- C150 for the standard output, which only `log` writes: when all calls have returned it holds the lines of
all informations, whole, each thread's in its order. -/
theorem C150_output (programs : List (List Message)) (sched : List Nat) (s : State)
    (h : run sched (init programs) = some s) (hf : Finished s) :
    ∃ order, WholeLines (content s .out) order ∧ Interleaves order programs fun m => decide (m.level = .info) := by
  obtain ⟨order, start, h1, h2, h3, h4⟩ := C150_one_level_partial programs sched s h .info
  have hs : start = [] := by
    rcases h3 with h3 | ⟨t, m, ps, rest, hw, -⟩
    · exact h3
    · rw [(hf t).2] at hw; cases hw
  refine ⟨order, ?_, fun t => ?_⟩
  · have hc : content s .out = contentOf s .info := by
      unfold content contentOf
      congr 2
      apply List.filter_congr
      rintro ⟨l, w⟩ -
      cases l <;> rfl
    rw [WholeLines, hc, h1, hs, List.append_nil]
  · rw [h4 t, (hf t).1, (hf t).2]
    simp

/-- C150 for the standard error, when only warnings, or only errors, are written: the same. -/
theorem C150_error_partial (programs : List (List Message)) (sched : List Nat) (s : State) (l other : Level)
    (hl : l.stream = .err) (ho : other ≠ l) (hs : other.stream = .err)
    (hp : ∀ p ∈ programs, ∀ m ∈ p, m.level ≠ other)
    (h : run sched (init programs) = some s) (hf : Finished s) :
    ∃ order, WholeLines (content s .err) order ∧ Interleaves order programs fun m => decide (m.level.stream = .err) := by
  have key : ∀ t, ∀ m ∈ programs.getD t [], m.level ≠ other := by
    intro t m hm
    by_cases ht : t < programs.length
    · rw [List.getD_eq_getElem _ _ ht] at hm
      exact hp _ (List.getElem_mem ht) m hm
    · rw [List.getD_eq_default _ _ (by omega)] at hm
      cases hm
  obtain ⟨o', st', hi'⟩ := inv_reached h other
  have ho' : o' = [] ∧ st' = [] := by
    constructor
    · cases o' with
      | nil => rfl
      | cons x xs =>
        exfalso
        have := hi'.threads x.1
        have hx : x.2 ∈ (programs.getD x.1 []).filter fun m => decide (m.level = other) := by
          rw [this]; simp
        rw [List.mem_filter] at hx
        exact key x.1 x.2 hx.1 (by simpa using hx.2)
    · cases hh : s.holder other with
      | none => exact (hi'.free hh).1
      | some k =>
        obtain ⟨⟨m, ps, done, h1, -⟩, -⟩ := hi'.held k hh
        rw [(hf k).2] at h1; cases h1
  have hempty : ∀ w ∈ s.written.filter (fun w => decide (w.1 = other)), w.2 = [] := by
    have := hi'.content
    rw [ho'.1, ho'.2] at this
    simp only [contentOf, List.map_nil, List.flatten_nil, List.append_nil, List.flatten_eq_nil_iff] at this
    intro w hw
    exact this w.2 (List.mem_map_of_mem hw)
  obtain ⟨order, start, h1, h2, h3, h4⟩ := C150_one_level_partial programs sched s h l
  have hst : start = [] := by
    rcases h3 with h3 | ⟨t, m, ps, rest, hw, -⟩
    · exact h3
    · rw [(hf t).2] at hw; cases hw
  refine ⟨order, ?_, fun t => ?_⟩
  · have hc : content s .err = contentOf s l := by
      unfold content contentOf
      generalize s.written = W at hempty
      clear h1 hi' h2 h3 h4 h hst
      induction W with
      | nil => rfl
      | cons w ws ih =>
        obtain ⟨k, x⟩ := w
        have ih' := ih fun w hw => hempty w (by
          rw [List.filter_cons]; split
          · exact List.mem_cons_of_mem _ hw
          · exact hw)
        by_cases hk : k = other
        · have hx : x = [] := hempty (k, x) (by rw [List.filter_cons]; simp [hk])
          simp only [List.filter_cons, hk, hs, ho, decide_true, decide_false, if_true, List.map_cons,
            List.flatten_cons, hx, List.nil_append, Bool.false_eq_true, if_false]
          exact ih'
        · by_cases hkl : k = l
          · simp only [List.filter_cons, hkl, hl, decide_true, if_true, List.map_cons, List.flatten_cons]
            rw [ih']
          · have : k.stream ≠ .err := by
              cases k <;> cases l <;> cases other <;> simp_all [Level.stream]
            simp only [List.filter_cons, hkl, this, decide_false, Bool.false_eq_true, if_false]
            exact ih'
    rw [WholeLines, hc, h1, hst, List.append_nil]
  · have h5 := h4 t
    rw [(hf t).1, (hf t).2] at h5
    simp only [Option.toList_none, List.map_nil, List.filter_nil, List.append_nil] at h5
    rw [← h5]
    apply List.filter_congr
    intro m hm
    have := key t m hm
    cases hml : m.level <;> rw [hml] at this <;> cases l <;> cases other <;> simp_all [Level.stream]

/-- C150: no schedule blocks: while a call has not returned, some thread can make a step. -/
theorem C150_no_deadlock (programs : List (List Message)) (sched : List Nat) (s : State)
    (h : run sched (init programs) = some s) (hf : ¬ Finished s) : ∃ t s', step t s = some s' := by
  unfold Finished at hf
  simp only [not_forall] at hf
  obtain ⟨t, ht⟩ := hf
  have hwrite : ∀ t x, (s.threads t).writing = some x → ∃ s', step t s = some s' := by
    rintro t ⟨m, ps⟩ hx
    unfold step
    rw [hx]
    cases ps <;> exact ⟨_, rfl⟩
  cases hw : (s.threads t).writing with
  | some x =>
    obtain ⟨s', h'⟩ := hwrite t x hw
    exact ⟨t, s', h'⟩
  | none =>
    cases htd : (s.threads t).todo with
    | nil => exact absurd ⟨htd, hw⟩ ht
    | cons m rest =>
      cases hh : s.holder m.level with
      | none =>
        refine ⟨t, ?_⟩
        unfold step
        rw [hw, htd]
        simp only [enabled_eq, hh]
        exact ⟨_, rfl⟩
      | some k =>
        obtain ⟨order, start, hi⟩ := inv_reached h m.level
        obtain ⟨⟨m', ps, done, h1, -⟩, -⟩ := hi.held k hh
        obtain ⟨s', h'⟩ := hwrite k _ h1
        exact ⟨k, s', h'⟩

/-- C150: every schedule ends: a call takes eleven steps (the mutex, nine insertions, the mutex), so no
schedule of the threads is longer than eleven times the number of calls, and those of that length are those
after which all calls have returned. -/
theorem C150_ends (programs : List (List Message)) (sched : List Nat) (s : State)
    (h : run sched (init programs) = some s) :
    sched.length ≤ 11 * (programs.map List.length).sum ∧
      (sched.length = 11 * (programs.map List.length).sum ↔ Finished s) := by
  have hn : ∀ t, programs.length ≤ t → (init programs).threads t = ⟨[], none⟩ := by
    intro t ht
    simp only [init]
    rw [List.getD_eq_default _ _ ht]
  obtain ⟨h1, h2⟩ := run_total hn h
  rw [total_init] at h1
  refine ⟨by omega, fun he => ?_, fun hf => ?_⟩
  · by_contra hf
    obtain ⟨t, s', hs'⟩ := C150_no_deadlock programs sched s h hf
    have ht : t < programs.length := by
      by_contra hlt
      rw [idle_step (h2 t (by omega))] at hs'
      cases hs'
    have := total_step ht hs'
    omega
  · rw [total_zero hf] at h1
    omega

/-- A warning and an error. -/
def aWarning : Message := ⟨.warning, "map.cpp".toList, 12, 5, "no match".toList⟩
def anError : Message := ⟨.error, "pose.cpp".toList, 7, 9, "no pose".toList⟩

/-- Two threads that take turns. -/
def turns : List Nat := (List.replicate 11 [0, 1]).flatten

/-- C150 is false for the standard error: the mutexes of `log_warning` and `log_error` are not the same.
A thread that warns and a thread that reports an error may take turns, and the text is neither line followed
by the other. -/
theorem C150_error_false : ∃ s, run turns (init [[aWarning], [anError]]) = some s ∧ Finished s ∧
    ∀ order, Interleaves order [[aWarning], [anError]] (fun m => decide (m.level.stream = .err)) →
      ¬ WholeLines (content s .err) order := by
  have hrun : (run turns (init [[aWarning], [anError]])).isSome = true := by decide +kernel
  obtain ⟨s, hs⟩ := Option.isSome_iff_exists.1 hrun
  refine ⟨s, hs, (C150_ends _ _ _ hs).2.1 (by decide), fun order ho hw => ?_⟩
  have hc : (run turns (init [[aWarning], [anError]])).map (fun s => (content s .err).take 20) =
      some "\x1B[33m[WARN] \x1B[31m[ER".toList := by decide +kernel
  rw [hs] at hc
  simp only [Option.map_some, Option.some.injEq] at hc
  rw [hw] at hc
  -- the first line of the text is one of the two
  have hmem : ∀ x ∈ order, x.2 = aWarning ∨ x.2 = anError := by
    intro x hx
    have hx' : x.2 ∈ ([[aWarning], [anError]].getD x.1 []).filter fun m => decide (m.level.stream = .err) := by
      rw [← ho x.1]
      exact List.mem_map_of_mem (List.mem_filter.2 ⟨hx, by simp⟩)
    have hx1 := (List.mem_filter.1 hx').1
    rcases x with ⟨_ | _ | n, m⟩
    · exact .inl (by simpa using hx1)
    · exact .inr (by simpa using hx1)
    · simp at hx1
  cases order with
  | nil => exact absurd hc (by decide)
  | cons x xs =>
    rw [List.map_cons, List.flatten_cons] at hc
    have hlen : 20 ≤ (line x.2).length := by
      rcases hmem x List.mem_cons_self with h | h <;> rw [h] <;> decide
    rw [List.take_append_of_le_length hlen] at hc
    rcases hmem x List.mem_cons_self with h | h <;> rw [h] at hc <;> exact absurd hc (by decide)

/-- The hypotheses are met: two threads that inform take turns as far as the mutex allows, and finish. -/
example : ∃ s, run ((List.replicate 11 0) ++ (List.replicate 11 1))
    (init [[⟨.info, "a.cpp".toList, 1, 1, "x".toList⟩], [⟨.info, "b.cpp".toList, 2, 2, "y".toList⟩]]) = some s ∧
    Finished s := by
  have hrun : (run ((List.replicate 11 0) ++ (List.replicate 11 1))
    (init [[⟨.info, "a.cpp".toList, 1, 1, "x".toList⟩],
      [⟨.info, "b.cpp".toList, 2, 2, "y".toList⟩]])).isSome = true := by decide +kernel
  obtain ⟨s, hs⟩ := Option.isSome_iff_exists.1 hrun
  exact ⟨s, hs, (C150_ends _ _ _ hs).2.1 (by decide)⟩

/-- A thread that waits for the mutex of another makes no step. -/
example : (run [0] (init [[aWarning], [aWarning]])).bind (step 1) = none := rfl

/-- `C150_error_partial` with warnings only. -/
example : ∀ p ∈ [[aWarning], [aWarning]], ∀ m ∈ p, m.level ≠ .error := by decide

end RgbdSlam.Logger
