import Verif.Model.Ransac
/-
Vocabulary for random subsets and for the consensus search.
-/
namespace RgbdSlam.Ransac

variable {M Pose : Type}

/-- `s` consists of elements of `l` taken at different positions, in any order. -/
def DrawnFrom (s l : List M) : Prop := ∃ t, s.Perm t ∧ t.Sublist l

/-- The sum of the scores. -/
def total (score : M → Rat) (l : List M) : Rat := (l.map score).sum

/-- Some steps of the iterations lead from one state of the parallel loop to another. -/
inductive Follows (p : Problem M Pose) (current : Pose) (l : List M) (stop : Nat) (s : Par M Pose) :
    Par M Pose → Prop
  | refl : Follows p current l stop s s
  | step {a b : Par M Pose} (shuffled : List M) (i : Nat) : Follows p current l stop s a →
      shuffled.Perm l → a.step p current l stop shuffled i = some b → Follows p current l stop s b

end RgbdSlam.Ransac
