import Verif.Model.Logger
/-
What is read in the streams.
-/
namespace RgbdSlam.Logger.Spec

/-- The line of a message, as it is meant to be read. -/
def line (m : Message) : List Char :=
  (match m.level with
    | .info => "\x1B[34m[INF] ".toList
    | .warning => "\x1B[33m[WARN] ".toList
    | .error => "\x1B[31m[ERR] ".toList) ++
  m.file ++ "(".toList ++ (toString m.line).toList ++ ":".toList ++ (toString m.column).toList ++ ") ".toList ++
    m.text ++ "\x1B[0m\n".toList

/-- The text of a stream. -/
def content (s : State) (which : Stream) : List Char :=
  ((s.written.filter fun w => decide (w.1.stream = which)).map (·.2)).flatten

/-- What one function wrote in its stream, without the insertions of the others. -/
def contentOf (s : State) (l : Level) : List Char :=
  ((s.written.filter fun w => decide (w.1 = l)).map (·.2)).flatten

/-- All calls have returned. -/
def Finished (s : State) : Prop := ∀ t, (s.threads t).todo = [] ∧ (s.threads t).writing = none

/-- `order` (threads and messages) contains the messages that satisfy `p` of every thread, in the order of the
thread. -/
def Interleaves (order : List (Nat × Message)) (programs : List (List Message)) (p : Message → Bool) : Prop :=
  ∀ t, (order.filter fun x => decide (x.1 = t)).map (·.2) = (programs.getD t []).filter p

/-- A text made of whole lines. -/
def WholeLines (text : List Char) (order : List (Nat × Message)) : Prop :=
  text = (order.map fun x => line x.2).flatten

end RgbdSlam.Logger.Spec
