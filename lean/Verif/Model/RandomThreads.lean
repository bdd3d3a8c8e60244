import Mathlib.Logic.Function.Basic
import Mathlib.Data.Nat.Notation

/-
The random numbers of the program (src/utils/random.hpp 16-58) and the threads that ask for them.

The engine and the distributions are those of the standard library: how they answer is arbitrary here.  What is
modelled is that they are `thread_local` variables, built with the seed of the program when a thread first uses
them.
-/
namespace RgbdSlam.RandomThreads

/-- The random objects of one thread: `randomEngine` (src/utils/random.hpp 19) and the two distributions
(src/utils/random.hpp 28 and 37), as one state `S`.  `Q` are the requests: a uniform number, a normal number, or a use
of the engine itself, as by `std::ranges::shuffle` (src/pose_optimization/ransac.hpp 29 and 82). -/
structure Source (S Q V : Type) where
  /-- the state built from the seed (`_seed`, src/utils/random.hpp 60-65) -/
  init : ℕ → S
  /-- the answer to a request, and the state after it -/
  answer : Q → S → V × S

variable {S Q V : Type}

/-- The `thread_local` variables of the threads; `none`: the thread did not use them yet. -/
abbrev Locals (S : Type) := ℕ → Option S

/-- No thread has asked for a random number yet. -/
def noLocals : Locals S := fun _ => none

/-- src/utils/random.hpp 17-21 (`get_random_engine`): the objects of thread `t`, built at their first use. -/
def objects (src : Source S Q V) (seed : ℕ) (locals : Locals S) (t : ℕ) : S :=
  match locals t with
  | some s => s
  | none => src.init seed

/-- src/utils/random.hpp 26-30, 35-39 and 17-21: thread `t` asks for `q`. -/
def request (src : Source S Q V) (seed : ℕ) (locals : Locals S) (t : ℕ) (q : Q) : V × Locals S :=
  let r := src.answer q (objects src seed locals t)
  (r.1, Function.update locals t (some r.2))

/-- Requests of several threads, in the order in which they happen: the answers, with the thread that got them. -/
def run (src : Source S Q V) (seed : ℕ) : Locals S → List (ℕ × Q) → List (ℕ × V)
  | _, [] => []
  | locals, (t, q) :: rest =>
    let r := request src seed locals t q
    (t, r.1) :: run src seed r.2 rest

/-- The variables after these requests. -/
def after (src : Source S Q V) (seed : ℕ) : Locals S → List (ℕ × Q) → Locals S
  | locals, [] => locals
  | locals, (t, q) :: rest => after src seed (request src seed locals t q).2 rest

/-- src/pose_optimization/pose_optimization.cpp 151-169: the iterations of the pose search, each of which asks for a
random subset of the matches (`q`).  `workers` gives the thread that runs each iteration, in the order in which they
draw; it is chosen by `tbb::parallel_for`.  The result are the subsets. -/
def searchDraws (src : Source S Q V) (seed : ℕ) (locals : Locals S) (workers : List ℕ) (q : Q) : List V :=
  (run src seed locals (workers.map fun t => (t, q))).map (·.2)

end RgbdSlam.RandomThreads
