import Verif.Model.Tables
/-!
# Model of nisaba/port/thread_pool.h

The pool is a transition system.  Every critical section of the mutex is one step, which is what
`absl::Mutex` provides.  The owner thread starts workers, schedules tasks and finally destroys the
pool.  A task is a function that schedules further tasks while it runs and then returns; other
effects of tasks are left out.  Tasks that block or throw are left out.
-/
namespace Nisaba.ThreadPool

/-- A scheduled function: a name and the functions that it schedules, in order. -/
inductive Task where
  | mk (name : Nat) (spawns : List Task)

/-- The tasks scheduled by a task. -/
def Task.spawns : Task → List Task
  | .mk _ l => l

/-- Calls made by the owner.  `StartWorkers` (thread_pool.h:46-50) is `spawn` once for every
thread. -/
inductive Op where
  | schedule (t : Task)
  | spawn

/-- thread_pool.h:46-50 `StartWorkers` of a pool made for `n` threads. -/
def startWorkers (n : Nat) : List Op := List.replicate n .spawn

/-- Control state of a worker in `WorkLoop` (thread_pool.h:77-91): waiting for work, running a task
with some calls of `Schedule` left, or returned. -/
inductive Worker where
  | idle
  | running (t : Task) (rest : List Task)
  | stopped

/-- Control state of the owner: before the destructor, in the destructor joining thread `k`, after
the destructor. -/
inductive Phase where
  | open_
  | joining (k : Nat)
  | returned

/-- State of the pool and of the owner.  `none` in the queue is `nullptr`. -/
structure State where
  ops : List Op
  phase : Phase
  queue : List (Option Task)
  workers : List Worker

/-- Observable events: a task is scheduled, a task begins, a task returns, the destructor pushes its
shutdown signals, a worker takes a shutdown signal, other steps. -/
inductive Event where
  | scheduled (t : Task)
  | begins (t : Task)
  | finishes (t : Task)
  | shutdown (n : Nat)
  | stops
  | silent

/-- Steps of the system. -/
inductive Step : State → Event → State → Prop
  /-- `Schedule` called by the owner, thread_pool.h:65-69. -/
  | schedule {t ops q ws} :
      Step ⟨.schedule t :: ops, .open_, q, ws⟩ (.scheduled t) ⟨ops, .open_, q ++ [some t], ws⟩
  /-- One turn of the loop of `StartWorkers`, thread_pool.h:47-49. -/
  | spawn {ops q ws} : Step ⟨.spawn :: ops, .open_, q, ws⟩ .silent ⟨ops, .open_, q, ws ++ [.idle]⟩
  /-- First block of the destructor, thread_pool.h:53-58. -/
  | shutdown {q ws} :
      Step ⟨[], .open_, q, ws⟩ (.shutdown ws.length)
        ⟨[], .joining 0, q ++ List.replicate ws.length none, ws⟩
  /-- `t.join()`, thread_pool.h:59-61. -/
  | join {ops k q ws} : ws[k]? = some .stopped →
      Step ⟨ops, .joining k, q, ws⟩ .silent ⟨ops, .joining (k + 1), q, ws⟩
  /-- End of the destructor. -/
  | return_ {ops q ws} : Step ⟨ops, .joining ws.length, q, ws⟩ .silent ⟨ops, .returned, q, ws⟩
  /-- A waiting worker takes a task, thread_pool.h:79-85. -/
  | begin {ops ph t q a b} :
      Step ⟨ops, ph, some t :: q, a ++ .idle :: b⟩ (.begins t) ⟨ops, ph, q, a ++ .running t t.spawns :: b⟩
  /-- A waiting worker takes a shutdown signal, thread_pool.h:79-88. -/
  | stop {ops ph q a b} :
      Step ⟨ops, ph, none :: q, a ++ .idle :: b⟩ .stops ⟨ops, ph, q, a ++ .stopped :: b⟩
  /-- `Schedule` called by a running task. -/
  | work {ops ph t s rest q a b} :
      Step ⟨ops, ph, q, a ++ .running t (s :: rest) :: b⟩ (.scheduled s)
        ⟨ops, ph, q ++ [some s], a ++ .running t rest :: b⟩
  /-- The running task returns, thread_pool.h:89. -/
  | finish {ops ph t q a b} :
      Step ⟨ops, ph, q, a ++ .running t [] :: b⟩ (.finishes t) ⟨ops, ph, q, a ++ .idle :: b⟩

/-- The pool after its constructor (thread_pool.h:39-41) with the calls that the owner will make. -/
def initial (ops : List Op) : State := ⟨ops, .open_, [], []⟩

/-- Executions and their events. -/
inductive Exec : State → List Event → State → Prop
  | nil {s} : Exec s [] s
  | snoc {s tr s' e s''} : Exec s tr s' → Step s' e s'' → Exec s (tr ++ [e]) s''

end Nisaba.ThreadPool
