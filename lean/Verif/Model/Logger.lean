/-
The three log functions, called by any number of threads (src/outputs/logger.cpp).  Every insertion in a
stream is one step; a thread waits for the mutex of the function it calls.

Left out: exceptions of the streams (the functions are noexcept), the buffering of the streams (the text is
the sequence of the insertions).
-/
namespace RgbdSlam.Logger

/-- `log`, `log_warning` and `log_error`. -/
inductive Level where
  | info | warning | error
  deriving DecidableEq, Repr

/-- `std::cout` and `std::cerr`. -/
inductive Stream where
  | out | err
  deriving DecidableEq, Repr

/-- src/outputs/logger.cpp 8-19: the enumeration and the constant `INFO_LEVEL`. -/
def infoLevel : Nat := 0

/-- The tests of logger.cpp 23, 39 and 55. -/
def Level.enabled : Level → Bool
  | .info => decide (infoLevel ≤ 1)
  | .warning => decide (infoLevel ≤ 2)
  | .error => decide (infoLevel ≤ 3)

/-- logger.cpp 29, 45 and 61. -/
def Level.stream : Level → Stream
  | .info => .out
  | .warning => .err
  | .error => .err

/-- The first insertion, logger.cpp 29, 45 and 61. -/
def Level.tag : Level → List Char
  | .info => "\x1B[34m[INF] ".toList
  | .warning => "\x1B[33m[WARN] ".toList
  | .error => "\x1B[31m[ERR] ".toList

/-- A call of a log function: the name of the file without its directory, the line, the column and the
message. -/
structure Message where
  level : Level
  file : List Char
  line : Nat
  column : Nat
  text : List Char
  deriving DecidableEq, Repr

/-- The insertions of a call in their order, logger.cpp 29-33, 45-49 and 61-65. -/
def pieces (m : Message) : List (List Char) :=
  [m.level.tag, m.file, "(".toList, (toString m.line).toList, ":".toList, (toString m.column).toList,
    ") ".toList, m.text, "\x1B[0m\n".toList]

/-- A thread: the calls it has still to make, and the call it is in with the insertions left. -/
structure Thread where
  todo : List Message
  writing : Option (Message × List (List Char))

/-- All threads, who holds the static mutex of each function (logger.cpp 25, 41 and 57), and the insertions made so
far with the function that made them. -/
structure State where
  threads : Nat → Thread
  holder : Level → Option Nat
  written : List (Level × List Char)

def State.setThread (s : State) (t : Nat) (x : Thread) : State :=
  { s with threads := fun u => if u = t then x else s.threads u }

def State.setHolder (s : State) (l : Level) (h : Option Nat) : State :=
  { s with holder := fun k => if k = l then h else s.holder k }

/-- One step of a thread in a log function, logger.cpp 21-66; `none`: it has nothing to do, or it waits for
the mutex. -/
def step (t : Nat) (s : State) : Option State :=
  match (s.threads t).writing with
  | none =>
    match (s.threads t).todo with
    | [] => none
    | m :: rest =>
      if !m.level.enabled then some (s.setThread t ⟨rest, none⟩)
      else if s.holder m.level = none then
        some ((s.setThread t ⟨rest, some (m, pieces m)⟩).setHolder m.level (some t))
      else none
  | some (m, p :: ps) =>
    some { s.setThread t ⟨(s.threads t).todo, some (m, ps)⟩ with written := s.written ++ [(m.level, p)] }
  | some (m, []) => some ((s.setThread t ⟨(s.threads t).todo, none⟩).setHolder m.level none)

/-- The threads make the steps in the order of the list; `none` when one of them cannot. -/
def run : List Nat → State → Option State
  | [], s => some s
  | t :: ts, s => (step t s).bind (run ts)

/-- No call has started. -/
def init (programs : List (List Message)) : State where
  threads t := ⟨programs.getD t [], none⟩
  holder _ := none
  written := []

end RgbdSlam.Logger
