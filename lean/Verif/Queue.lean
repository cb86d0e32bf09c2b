import Verif.Basic

/-!
Model of the queue writer: alsfvm/src/io/QueueWriter.cpp and alsfvm/include/alsfvm/io/QueueWriter.hpp.

All members are used only while the mutex is held, so each critical section is one step. A thread that waits on the condition variable is listed in `blocked` with
the volume it wants to write; it may go on when the predicate it waits for holds (a wake-up without the predicate or with the queue full changes nothing). Volumes are their contents; all volumes
given to one queue are assumed to have the same size, so that `copyTo` (QueueWriter.cpp:49) replaces the contents (C04).
-/

namespace Verif.Queue
variable {V : Type}

/-- The members of `QueueWriter` (QueueWriter.hpp:58-70): `allocated` are the contents of `allocatedVolumes`; `waiting` are the entries of `waitingVolumes`, each a shared pointer given
by its position in `allocated`. `blocked` are the volumes of calls of `write` waiting at QueueWriter.cpp:35. -/
structure State (V : Type) where
  queueSize : Nat
  nextIndex : Nat
  allocated : List V
  waiting : List Nat
  blocked : List V

/-- Constructor (QueueWriter.cpp:21-26). -/
def init (queueLength : Nat) : State V := ⟨queueLength, 0, [], [], []⟩

/-- The condition of the loop at QueueWriter.cpp:34. -/
def mustWait (s : State V) : Bool := s.waiting.length == s.queueSize

/-- The predicate of the wait at QueueWriter.cpp:35-37. -/
def mayWake (s : State V) : Bool := decide (s.waiting.length < s.allocated.length)

/-- The end of `write` after the loop (QueueWriter.cpp:40-50). `fresh` is the contents of a new volume. -/
def push (fresh v : V) (s : State V) : Res (State V) :=
  let s := if s.nextIndex < s.queueSize ∧ s.allocated.length ≤ s.nextIndex then { s with allocated := s.allocated ++ [fresh] } else s
  if s.nextIndex < s.allocated.length then
    .ok { s with allocated := s.allocated.set s.nextIndex v, waiting := s.waiting ++ [s.nextIndex] }
  else .error .ub

/-- One step of the queue, with the sequences of all volumes pushed and popped so far. -/
inductive Step (fresh : V) : State V × List V × List V → State V × List V × List V → Prop
  /-- A call of `write` (QueueWriter.cpp:28-53) that finds room. -/
  | write {s s' : State V} {ins outs : List V} {v : V} : mustWait s = false → push fresh v s = .ok s' → Step fresh (s, ins, outs) (s', ins ++ [v], outs)
  /-- A call of `write` that finds the queue full (QueueWriter.cpp:34-35). -/
  | block {s : State V} {ins outs : List V} {v : V} : mustWait s = true → Step fresh (s, ins, outs) ({ s with blocked := s.blocked ++ [v] }, ins, outs)
  /-- A waiting call of `write` finds its predicate and the loop condition satisfied and goes on (QueueWriter.cpp:34-50). -/
  | wake {s s' : State V} {ins outs before after : List V} {v : V} : s.blocked = before ++ v :: after → mayWake s = true → mustWait s = false →
      push fresh v { s with blocked := before ++ after } = .ok s' → Step fresh (s, ins, outs) (s', ins ++ [v], outs)
  /-- A call of `pop` (QueueWriter.cpp:55-69) that finds the queue not empty: the handler gets the present contents of the front volume. -/
  | pop {s : State V} {ins outs : List V} {i : Nat} {rest : List Nat} {v : V} : s.waiting = i :: rest → s.allocated[i]? = some v →
      Step fresh (s, ins, outs) ({ s with waiting := rest }, ins, outs ++ [v])

end Verif.Queue
