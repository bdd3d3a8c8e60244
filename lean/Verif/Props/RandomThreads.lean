import Verif.Spec.RandomThreads
import Mathlib.Data.List.Nodup
import Mathlib.Data.List.Count

/-
C161, C162: the random numbers of the threads.
-/
namespace RgbdSlam.RandomThreads

variable {S Q V : Type}

/-- The answers got by thread `t` are those its own random objects give to its own requests. -/
theorem run_thread (src : Source S Q V) (seed : ℕ) (t : ℕ) (sched : List (ℕ × Q)) (locals : Locals S) :
    ((run src seed locals sched).filter fun a => a.1 == t).map (·.2) =
      answers src (objects src seed locals t) ((sched.filter fun a => a.1 == t).map (·.2)) := by
  induction sched generalizing locals with
  | nil => rfl
  | cons a rest ih =>
    obtain ⟨u, q⟩ := a
    by_cases h : u = t
    · subst h
      simp only [run, List.filter_cons, beq_self_eq_true, if_true, List.map_cons, answers, ih, request]
      congr 2
      simp [objects]
    · have hb : (u == t) = false := by simpa using h
      simp only [run, List.filter_cons, hb, Bool.false_eq_true, if_false, ih, request]
      congr 1
      simp [objects, Function.update_of_ne (Ne.symm h)]

/-- A source that counts: the state is the next number. -/
def counting : Source ℕ Unit ℕ := ⟨id, fun _ s => (s, s + 1)⟩

/-- **C161.**  Whatever the threads and the order in which they ask for random numbers, the answers got by a thread are
those of a program in which this thread is alone and makes the same requests: they depend on the seed and on what the
thread itself asked for, not on the other threads nor on the schedule.  -/
theorem C161_threads (src : Source S Q V) (seed : ℕ) (sched : List (ℕ × Q)) (t : ℕ) :
    ((run src seed noLocals sched).filter fun a => a.1 == t).map (·.2) =
      answers src (src.init seed) ((sched.filter fun a => a.1 == t).map (·.2)) :=
  run_thread src seed t sched noLocals

/-- Three threads that ask in turn. -/
example : run counting 7 noLocals [(1, ()), (2, ()), (1, ()), (3, ()), (1, ()), (2, ())] =
    [(1, 7), (2, 7), (1, 8), (3, 7), (1, 9), (2, 8)] := by decide

/-- **C161.**  A thread that asks for random numbers for the first time gets the first ones of the seed, whatever was
asked for before by the other threads.  -/
theorem C161_new_thread (src : Source S Q V) (seed : ℕ) (before : List (ℕ × Q)) (t : ℕ)
    (hnew : ∀ a ∈ before, a.1 ≠ t) (qs : List Q) :
    (run src seed (after src seed noLocals before) (qs.map fun q => (t, q))).map (·.2) =
      answers src (src.init seed) qs := by
  have hloc : ∀ (before : List (ℕ × Q)) (locals : Locals S), (∀ a ∈ before, a.1 ≠ t) →
      (after src seed locals before) t = locals t := by
    intro before
    induction before with
    | nil => intro _ _; rfl
    | cons a rest ih =>
      intro locals h
      obtain ⟨u, q⟩ := a
      have hu : u ≠ t := h (u, q) (by simp)
      simp only [after]
      rw [ih _ fun a ha => h a (by simp [ha])]
      simp [request, Function.update_of_ne (Ne.symm hu)]
  have h := run_thread src seed t (qs.map fun q => (t, q)) (after src seed noLocals before)
  have hall : ∀ (qs : List Q) (locals : Locals S),
      (run src seed locals (qs.map fun q => (t, q))).filter (fun a => a.1 == t) =
        run src seed locals (qs.map fun q => (t, q)) := by
    intro qs
    induction qs with
    | nil => intro _; rfl
    | cons q qs ih => intro locals; simp [run, ih]
  have hqs : ((qs.map fun q => (t, q)).filter fun a => a.1 == t).map (·.2) = qs := by
    clear h
    induction qs with
    | nil => rfl
    | cons q qs ih => simpa [List.filter_cons] using ih
  rw [hall, hqs] at h
  rw [h]
  congr 1
  simp [objects, hloc before noLocals hnew, noLocals]

example : (run counting 7 (after counting 7 noLocals [(1, ()), (2, ()), (1, ())]) [(5, ()), (5, ())]).map (·.2) =
    [7, 8] := by decide

/-! ### The subsets tried by the pose search -/

/-- The answers to one request repeated. -/
theorem answers_replicate (src : Source S Q V) (seed : ℕ) (q : Q) (n k : ℕ) :
    answers src (stateAfter src seed q k) (List.replicate n q) =
      (List.range n).map fun i => stream src seed q (k + i) := by
  induction n generalizing k with
  | zero => rfl
  | succ n ih =>
    rw [List.replicate_succ, List.range_succ_eq_map]
    simp only [answers, List.map_cons, List.map_map]
    refine congrArg₂ _ rfl ?_
    have := ih (k + 1)
    simp only [stateAfter] at this
    rw [this]
    apply List.map_congr_left
    intro i _
    simp only [Function.comp]
    congr 1
    omega

/-- The subsets drawn by the iterations of thread `t`. -/
theorem draws_thread (src : Source S Q V) (seed : ℕ) (workers : List ℕ) (q : Q) (t : ℕ) :
    ((run src seed noLocals (workers.map fun u => (u, q))).filter fun a => a.1 == t).map (·.2) =
      (List.range (workers.count t)).map (stream src seed q) := by
  rw [run_thread]
  have : ((workers.map fun u => (u, q)).filter fun a => a.1 == t).map (·.2) =
      List.replicate (workers.count t) q := by
    induction workers with
    | nil => rfl
    | cons u us ih =>
      by_cases h : u = t
      · subst h
        simpa [List.filter_cons, List.replicate_succ] using ih
      · have hb : (u == t) = false := by simpa using h
        simp only [List.map_cons, List.filter_cons, hb, Bool.false_eq_true, if_false, ih, List.count_cons]
        simp
  rw [this]
  have h0 := answers_replicate src seed q (workers.count t) 0
  simpa [stateAfter, objects, noLocals] using h0

/-- **C162, false.**  The threads of the pose search do not draw different subsets: all threads start from the same
seed, so that the first iterations of two threads draw the same subset, whatever the generator and the seed.  The
claim that the iterations of a search never use the same random numbers twice does not hold as soon as two threads
run.  -/
theorem C162_false (src : Source S Q V) (seed : ℕ) (q : Q) (t u : ℕ) (h : t ≠ u) :
    ¬ (searchDraws src seed noLocals [t, u] q).Nodup := by
  simp [searchDraws, run, request, objects, noLocals, Function.update_of_ne (Ne.symm h)]

example : searchDraws counting 7 noLocals [1, 2, 3, 1] () = [7, 7, 7, 8] := by decide

/-- **C162, partial.**  A search run by one thread uses new random numbers at each iteration: iteration `i` gets answer
number `i` of the generator, so that no subset is tried twice unless the generator itself repeats.  (Missing: the
searches on several threads, for which it is false.)  -/
theorem C162_partial (src : Source S Q V) (seed : ℕ) (q : Q) (t n : ℕ) :
    searchDraws src seed noLocals (List.replicate n t) q = (List.range n).map (stream src seed q) ∧
      (Function.Injective (stream src seed q) →
        (searchDraws src seed noLocals (List.replicate n t) q).Nodup) := by
  have h : searchDraws src seed noLocals (List.replicate n t) q = (List.range n).map (stream src seed q) := by
    have := draws_thread src seed (List.replicate n t) q t
    rw [List.count_replicate_self] at this
    rw [← this, searchDraws]
    congr 1
    symm
    rw [List.filter_eq_self]
    have hall : ∀ (n : ℕ) (locals : Locals S),
        ∀ a ∈ run src seed locals ((List.replicate n t).map fun u => (u, q)), (a.1 == t) = true := by
      intro n
      induction n with
      | zero => intro _ a ha; simp [run] at ha
      | succ n ih =>
        intro locals a ha
        simp only [List.replicate_succ, List.map_cons, run, List.mem_cons] at ha
        rcases ha with rfl | ha
        · simp
        · exact ih _ a ha
    exact hall n noLocals
  refine ⟨h, fun hinj => ?_⟩
  rw [h]
  exact List.Nodup.map hinj List.nodup_range

/-- The counting source never repeats. -/
example : Function.Injective (stream counting 7 ()) := by
  have h : ∀ n, stateAfter counting 7 () n = 7 + n := by
    intro n
    induction n with
    | zero => rfl
    | succ n ih => rw [stateAfter, ih]; rfl
  intro a b hab
  have hab' : stateAfter counting 7 () a = stateAfter counting 7 () b := hab
  rw [h, h] at hab'
  omega

/-- **C162, partial.**  For any number of threads: the subsets tried by a search are exactly the first answers of the
generator, as many as the busiest thread has iterations.  More threads for the same number of iterations try fewer
subsets.  -/
theorem C162_tried_partial (src : Source S Q V) (seed : ℕ) (q : Q) (workers : List ℕ) (v : V) :
    v ∈ searchDraws src seed noLocals workers q ↔
      ∃ t, ∃ k < workers.count t, v = stream src seed q k := by
  have hmem : ∀ v, v ∈ searchDraws src seed noLocals workers q ↔
      ∃ t, v ∈ ((run src seed noLocals (workers.map fun u => (u, q))).filter fun a => a.1 == t).map (·.2) := by
    intro v
    simp [searchDraws]
  rw [hmem]
  constructor
  · rintro ⟨t, ht⟩
    rw [draws_thread] at ht
    simp only [List.mem_map, List.mem_range] at ht
    obtain ⟨k, hk, rfl⟩ := ht
    exact ⟨t, k, hk, rfl⟩
  · rintro ⟨t, k, hk, rfl⟩
    refine ⟨t, ?_⟩
    rw [draws_thread]
    simp only [List.mem_map, List.mem_range]
    exact ⟨k, hk, rfl⟩

/-- Six iterations on three threads try two subsets only. -/
example : searchDraws counting 7 noLocals [1, 2, 3, 3, 2, 1] () = [7, 7, 7, 8, 8, 8] := by decide

end RgbdSlam.RandomThreads
