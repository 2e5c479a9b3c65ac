import Verif.Lemma.Common

/-! Model of I/O queues. Source: `/repo/src/ocf_queue.c`. -/

namespace Verif.Queue

/-- One push: an occurrence number, and whether `OCF_QUEUE_PRIO_HIGH` was given
(`/repo/src/ocf_queue_priv.h:13-15`). The same request may be pushed again later; occurrences
tell the pushes apart. -/
structure Item where
  id : Nat
  high : Bool
deriving DecidableEq, Repr

/-- `struct ocf_queue` (`/repo/src/ocf_queue_priv.h:17-46`): two lists and `io_no`; plus
histories of pushes and pops, and for every pop the low/high lists seen. -/
structure State where
  high : List Item
  low : List Item
  ioNo : Int
  pushed : List Item
  popped : List Item
deriving DecidableEq, Repr

/-- `_ocf_queue_create`, `/repo/src/ocf_queue.c:17-44`. -/
def init : State := ⟨[], [], 0, [], []⟩

/-- The locked section of `ocf_queue_push_req`, `/repo/src/ocf_queue.c:273-279`. -/
def push (s : State) (x : Item) : State :=
  { s with
    high := if x.high then s.high ++ [x] else s.high
    low := if x.high then s.low else s.low ++ [x]
    ioNo := s.ioNo + 1
    pushed := s.pushed ++ [x] }

/-- The locked section of `ocf_queue_pop_req`, `/repo/src/ocf_queue.c:173-206`. The result is
the request run by `ocf_queue_run_single` (`:208-223`). -/
def pop (s : State) : State × Option Item :=
  match s.high with
  | x :: t => ({ s with high := t, ioNo := s.ioNo - 1, popped := s.popped ++ [x] }, some x)
  | [] =>
    match s.low with
    | x :: t => ({ s with low := t, ioNo := s.ioNo - 1, popped := s.popped ++ [x] }, some x)
    | [] => (s, none)

/-- Any number of threads pushing and running (`/repo/src/ocf_queue.c:208-236,256-286`); the
spin lock makes the two sections atomic. -/
inductive Step : State → State → Prop
  | push (s : State) (x : Item) : (∀ y ∈ s.pushed, y.id ≠ x.id) → Step s (push s x)
  | pop (s : State) : Step s (pop s).1

/-- The loop test of `ocf_queue_run`, `/repo/src/ocf_queue.c:231`: the runner stops. -/
def runStops (s : State) : Prop := ¬ s.ioNo > 0

end Verif.Queue
