import Verif.Model.RandomThreads

/-
What the random numbers of a thread should be: those of a program with one thread only.
-/
namespace RgbdSlam.RandomThreads

variable {S Q V : Type}

/-- The answers to the requests `qs`, one after the other, of random objects in the state `s`. -/
def answers (src : Source S Q V) : S → List Q → List V
  | _, [] => []
  | s, q :: qs => (src.answer q s).1 :: answers src (src.answer q s).2 qs

/-- The random objects after `n` requests of `q`, from the seed. -/
def stateAfter (src : Source S Q V) (seed : ℕ) (q : Q) : ℕ → S
  | 0 => src.init seed
  | n + 1 => (src.answer q (stateAfter src seed q n)).2

/-- Answer number `n` (from 0) to a request repeated by a single thread. -/
def stream (src : Source S Q V) (seed : ℕ) (q : Q) (n : ℕ) : V := (src.answer q (stateAfter src seed q n)).1

end RgbdSlam.RandomThreads
