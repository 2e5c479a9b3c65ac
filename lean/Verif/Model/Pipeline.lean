/-! Model of management pipelines. Source: `/repo/src/utils/utils_pipeline.c`. -/

namespace Verif.Pipeline

/-- `struct ocf_pipeline_arg` (`/repo/src/utils/utils_pipeline.h:19-32`): an argument or the
terminator. Simplification: arguments are opaque naturals. -/
inductive Arg
  | val (n : Nat)
  | term
deriving DecidableEq, Repr

/-- A step handler together with what the code it starts eventually does: it changes the private
state and then either calls `ocf_pipeline_next` (`none`) or `ocf_pipeline_finish` with a code
(`/repo/src/utils/utils_pipeline.c:136-146`). Assumption: it does exactly one of these, once. -/
abbrev Hndl (σ : Type) := Arg → σ → σ × Option Int

/-- `struct ocf_pipeline_step`, `/repo/src/utils/utils_pipeline.h:73-82`. -/
inductive PStep (σ : Type)
  | single (h : Hndl σ) (a : Arg)
  | cond (p : Arg → σ → Bool) (h : Hndl σ) (a : Arg)
  | foreach (h : Hndl σ) (args : List Arg)
  | term

/-- Observable events: handler of step `k` called with an argument and state, finish callback
called with an error code and state (`/repo/src/utils/utils_pipeline.c:40-44,50-75`). -/
inductive Event (σ : Type)
  | call (k : Nat) (a : Arg) (st : σ)
  | finish (e : Int) (st : σ)

/-- `struct ocf_pipeline`, `/repo/src/utils/utils_pipeline.c:23-32`, with its private state, the
event history, and whether its request is queued again (`queued`). -/
structure PState (σ : Type) where
  nextStep : Nat
  nextArg : Nat
  finish : Bool
  error : Int
  st : σ
  trace : List (Event σ)
  queued : Bool

/-- `ocf_pipeline_create` followed by `ocf_pipeline_next`
(`/repo/src/utils/utils_pipeline.c:82-118,136-139`). -/
def init {σ} (st : σ) : PState σ := ⟨0, 0, false, 0, st, [], true⟩

/-- Calling a handler from step `k`, then `ocf_pipeline_next`/`ocf_pipeline_finish`
(`/repo/src/utils/utils_pipeline.c:52,57,68,136-146`). -/
def call {σ} (p : PState σ) (k : Nat) (h : Hndl σ) (a : Arg) : PState σ :=
  let r := h a p.st
  match r.2 with
  | none => { p with st := r.1, trace := p.trace ++ [.call k a p.st], queued := true }
  | some e => { p with st := r.1, trace := p.trace ++ [.call k a p.st], finish := true, error := e,
                       queued := true }

/-- The `while (true)` loop of `_ocf_pipeline_run_step`
(`/repo/src/utils/utils_pipeline.c:46-77`). `none`: read past the end of the step or argument
array. -/
def loop {σ} (steps : List (PStep σ)) (p : PState σ) : Option (PState σ) :=
  if hlt : p.nextStep < steps.length then
    match steps[p.nextStep] with
    | .single h a => some (call { p with nextStep := p.nextStep + 1 } p.nextStep h a)
    | .cond pr h a =>
      let p' := { p with nextStep := p.nextStep + 1 }
      if pr a p'.st then some (call p' p.nextStep h a) else loop steps p'
    | .foreach h args =>
      match args[p.nextArg]? with
      | none => none
      | some .term => loop steps { p with nextArg := 0, nextStep := p.nextStep + 1 }
      | some a => some (call { p with nextArg := p.nextArg + 1 } p.nextStep h a)
    | .term => some { p with trace := p.trace ++ [.finish p.error p.st] }
  else none
termination_by steps.length - p.nextStep

/-- `_ocf_pipeline_run_step`, `/repo/src/utils/utils_pipeline.c:34-80`: one run of the pipeline's
request from the management queue. If the request is not queued nothing happens. -/
def tick {σ} (steps : List (PStep σ)) (p : PState σ) : Option (PState σ) :=
  if p.queued then
    let p := { p with queued := false }
    if p.finish then some { p with trace := p.trace ++ [.finish p.error p.st] }
    else loop steps p
  else some p

/-- `n` runs of the request (`/repo/src/utils/utils_pipeline.c:34-80`). -/
def ticks {σ} (steps : List (PStep σ)) : Nat → PState σ → Option (PState σ)
  | 0, p => some p
  | n + 1, p => (tick steps p).bind (ticks steps n)

end Verif.Pipeline
