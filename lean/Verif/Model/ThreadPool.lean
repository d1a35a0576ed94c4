/-!
# The thread pool

Models `library/cpp/include/wavemap/core/utils/thread_pool.h` and `library/cpp/src/core/utils/thread_pool.cc` as a
transition system: any number of worker threads, client threads calling `add_task` and `wait_all`, and one thread
running the destructor. Every access to a shared variable outside a critical section is its own step; inside a
critical section steps are merged only where all variables read or written are accessed under the mutex alone
(`tasks_`, `terminate_`); `task_count_` is accessed outside it and gets its own steps. Condition variables have
Mesa semantics with spurious wake-ups; a woken thread must re-acquire the mutex and re-evaluate its predicate.

Simplifications: tasks terminate, and a task's own work is one step (`w_run`); calls made from inside a task to
`add_task` are covered by client threads, `wait_all` from inside a task is excluded (it can only block the pool);
`std::thread`/`std::future` plumbing is not modelled; memory order is sequentially consistent (the code uses the
default order).
-/
namespace Wavemap.ThreadPool

/-- Program counter of a worker (thread_pool.cc:42-71). -/
inductive WPc where
  | acquire            -- about to lock `tasks_mutex_` (line 47, or re-acquiring it after a wake-up, lines 50-51)
  | check              -- holds the mutex, about to evaluate the predicate (lines 50-59)
  | sleeping           -- waiting on `worker_condition_` (line 50)
  | run (t : Nat)      -- has popped a task, mutex released (line 63)
  | dec                -- task done, about to decrement `task_count_` (line 64)
  | test               -- about to read `task_count_` (line 67)
  | lockNotify         -- about to lock (line 68)
  | notify             -- holds the mutex, about to notify and unlock (line 69)
  | exited             -- returned (line 54)
deriving DecidableEq

/-- Program counter of a client thread (thread_pool.h:81-100, thread_pool.cc:36-40). -/
inductive CPc where
  | idle
  | addLock (t : Nat)  -- in `add_task`, about to lock (thread_pool.h:90)
  | addPush (t : Nat)  -- holds the mutex (lines 91-94)
  | addCount           -- holds the mutex, task pushed, about to increment `task_count_` (line 95)
  | addNotify          -- mutex released, about to `notify_one` (line 97)
  | waitLock           -- in `wait_all`, about to lock or re-acquire the mutex (thread_pool.cc:37-38)
  | waitCheck          -- holds the mutex, about to evaluate the predicate (line 39)
  | waitDecided        -- holds the mutex, predicate was false, about to sleep (line 38)
  | waitSleeping       -- waiting on `wait_all_condition_` (line 38)
deriving DecidableEq

/-- Program counter of the destructor (thread_pool.cc:24-34). -/
inductive DPc where
  | idle               -- not called yet
  | lock               -- about to lock (line 26)
  | set                -- holds the mutex, about to set `terminate_` (line 27)
  | notify             -- about to notify all workers (line 29)
  | join               -- joining the workers (lines 30-32)
  | notifyWait         -- about to notify waiting clients (line 33)
  | done
deriving DecidableEq

/-- Thread identifiers (thread_pool.h:65). -/
inductive Tid (n m : Nat) where
  | worker (i : Fin n)
  | client (c : Fin m)
  | dtor
deriving DecidableEq

/-- State of a pool with `n` workers, used by `m` client threads (thread_pool.h:61-78). -/
structure Pool (n m : Nat) where
  queue : List Nat
  count : Int
  terminate : Bool
  lock : Option (Tid n m)
  wpc : Fin n → WPc
  cpc : Fin m → CPc
  dpc : DPc
  /-- `LOG(FATAL)` was reached (thread_pool.h:92): the process is gone. -/
  fatal : Bool

/-- Observable events. Auxiliary: what is observed of the calls of thread_pool.h:81-100 and thread_pool.cc:24-71. -/
inductive Event (n m : Nat) where
  | tau
  | add (c : Fin m) (t : Nat)    -- task `t` entered the queue
  | addReturn (c : Fin m)        -- `add_task` returned
  | start (i : Fin n) (t : Nat)  -- worker `i` starts executing `t`
  | finish (i : Fin n) (t : Nat) -- worker `i` finished executing `t`
  | waitReturn (c : Fin m)       -- `wait_all` returned
  | dtorReturn                   -- the destructor returned

variable {n m : Nat}

/-- Pointwise update. Auxiliary: writing one thread's state (thread_pool.h:65). -/
def upd {k : Nat} {α : Type} (f : Fin k → α) (i : Fin k) (a : α) : Fin k → α := fun j => if j = i then a else f j

/-- `worker_condition_.notify_all()` (thread_pool.cc:24-34). -/
def wakeWorkers (f : Fin n → WPc) : Fin n → WPc := fun i => if f i = .sleeping then .acquire else f i

/-- `wait_all_condition_.notify_all()` (thread_pool.cc:42-71). -/
def wakeWaiters (f : Fin m → CPc) : Fin m → CPc := fun c => if f c = .waitSleeping then .waitLock else f c

/-- Constructor (thread_pool.cc:9-22): all workers start their loop. -/
def init (n m : Nat) : Pool n m := ⟨[], 0, false, none, fun _ => .acquire, fun _ => .idle, .idle, false⟩

/-- Steps the pool takes by itself once calls have been made (thread_pool.cc:24-71). -/
inductive Internal : Pool n m → Event n m → Pool n m → Prop
  /-- worker: lock (thread_pool.cc:47) -/
  | w_lock (s) (i : Fin n) : s.wpc i = .acquire → s.lock = none →
      Internal s .tau { s with lock := some (.worker i), wpc := upd s.wpc i .check }
  /-- worker: nothing to do, wait (lines 50-51) -/
  | w_sleep (s) (i : Fin n) : s.wpc i = .check → s.terminate = false → s.queue = [] →
      Internal s .tau { s with lock := none, wpc := upd s.wpc i .sleeping }
  /-- worker: terminate (lines 53-55) -/
  | w_exit (s) (i : Fin n) : s.wpc i = .check → s.terminate = true → s.queue = [] →
      Internal s .tau { s with lock := none, wpc := upd s.wpc i .exited }
  /-- worker: pop a task (lines 57-59) -/
  | w_pop (s) (i : Fin n) (t : Nat) (q : List Nat) : s.wpc i = .check → s.queue = t :: q →
      Internal s (.start i t) { s with queue := q, lock := none, wpc := upd s.wpc i (.run t) }
  /-- worker: execute the task (line 63) -/
  | w_run (s) (i : Fin n) (t : Nat) : s.wpc i = .run t →
      Internal s (.finish i t) { s with wpc := upd s.wpc i .dec }
  /-- worker: `task_count_--` (line 64) -/
  | w_dec (s) (i : Fin n) : s.wpc i = .dec →
      Internal s .tau { s with count := s.count - 1, wpc := upd s.wpc i .test }
  /-- worker: `task_count_ == 0` (line 67) -/
  | w_testZero (s) (i : Fin n) : s.wpc i = .test → s.count = 0 →
      Internal s .tau { s with wpc := upd s.wpc i .lockNotify }
  /-- worker: `task_count_ != 0` (line 67) -/
  | w_testNonzero (s) (i : Fin n) : s.wpc i = .test → s.count ≠ 0 →
      Internal s .tau { s with wpc := upd s.wpc i .acquire }
  /-- worker: lock (line 68) -/
  | w_lockNotify (s) (i : Fin n) : s.wpc i = .lockNotify → s.lock = none →
      Internal s .tau { s with lock := some (.worker i), wpc := upd s.wpc i .notify }
  /-- worker: `wait_all_condition_.notify_all()` and unlock (lines 69-70) -/
  | w_notify (s) (i : Fin n) : s.wpc i = .notify →
      Internal s .tau { s with lock := none, wpc := upd s.wpc i .acquire, cpc := wakeWaiters s.cpc }
  /-- `add_task`: lock (thread_pool.h:90) -/
  | a_lock (s) (c : Fin m) (t : Nat) : s.cpc c = .addLock t → s.lock = none →
      Internal s .tau { s with lock := some (.client c), cpc := upd s.cpc c (.addPush t) }
  /-- `add_task`: push (line 94) -/
  | a_push (s) (c : Fin m) (t : Nat) : s.cpc c = .addPush t → s.terminate = false →
      Internal s (.add c t) { s with queue := s.queue ++ [t], cpc := upd s.cpc c .addCount }
  /-- `add_task`: `LOG(FATAL)` (lines 91-93) -/
  | a_fatal (s) (c : Fin m) (t : Nat) : s.cpc c = .addPush t → s.terminate = true →
      Internal s .tau { s with fatal := true }
  /-- `add_task`: `task_count_++` and unlock (lines 95-96) -/
  | a_count (s) (c : Fin m) : s.cpc c = .addCount →
      Internal s .tau { s with count := s.count + 1, lock := none, cpc := upd s.cpc c .addNotify }
  /-- `add_task`: `notify_one` wakes some waiting worker (line 97) -/
  | a_notify (s) (c : Fin m) (i : Fin n) : s.cpc c = .addNotify → s.wpc i = .sleeping →
      Internal s (.addReturn c) { s with cpc := upd s.cpc c .idle, wpc := upd s.wpc i .acquire }
  /-- `add_task`: `notify_one` with no worker waiting (line 97) -/
  | a_notifyNone (s) (c : Fin m) : s.cpc c = .addNotify → (∀ i, s.wpc i ≠ .sleeping) →
      Internal s (.addReturn c) { s with cpc := upd s.cpc c .idle }
  /-- `wait_all`: lock (thread_pool.cc:37, 38) -/
  | b_lock (s) (c : Fin m) : s.cpc c = .waitLock → s.lock = none →
      Internal s .tau { s with lock := some (.client c), cpc := upd s.cpc c .waitCheck }
  /-- `wait_all`: predicate true, return (lines 38-40) -/
  | b_return (s) (c : Fin m) : s.cpc c = .waitCheck → (s.terminate = true ∨ s.count = 0) →
      Internal s (.waitReturn c) { s with lock := none, cpc := upd s.cpc c .idle }
  /-- `wait_all`: predicate false (line 39) -/
  | b_decide (s) (c : Fin m) : s.cpc c = .waitCheck → s.terminate = false → s.count ≠ 0 →
      Internal s .tau { s with cpc := upd s.cpc c .waitDecided }
  /-- `wait_all`: release the mutex and sleep (line 38) -/
  | b_sleep (s) (c : Fin m) : s.cpc c = .waitDecided →
      Internal s .tau { s with lock := none, cpc := upd s.cpc c .waitSleeping }
  /-- destructor: lock (line 26) -/
  | d_lock (s) : s.dpc = .lock → s.lock = none → Internal s .tau { s with lock := some .dtor, dpc := .set }
  /-- destructor: `terminate_ = true`, unlock (lines 27-28) -/
  | d_set (s) : s.dpc = .set → Internal s .tau { s with terminate := true, lock := none, dpc := .notify }
  /-- destructor: notify all workers (line 29) -/
  | d_notify (s) : s.dpc = .notify → Internal s .tau { s with wpc := wakeWorkers s.wpc, dpc := .join }
  /-- destructor: all workers joined (lines 30-32) -/
  | d_join (s) : s.dpc = .join → (∀ i, s.wpc i = .exited) → Internal s .tau { s with dpc := .notifyWait }
  /-- destructor: notify waiting clients and return (lines 33-34) -/
  | d_return (s) : s.dpc = .notifyWait → Internal s .dtorReturn { s with cpc := wakeWaiters s.cpc, dpc := .done }

/-- Calls made by the environment, and spurious wake-ups (thread_pool.h:81-100, thread_pool.cc:9-40). -/
inductive External : Pool n m → Pool n m → Prop
  | callAdd (s) (c : Fin m) (t : Nat) : s.cpc c = .idle → External s { s with cpc := upd s.cpc c (.addLock t) }
  | callWait (s) (c : Fin m) : s.cpc c = .idle → External s { s with cpc := upd s.cpc c .waitLock }
  | callDtor (s) : s.dpc = .idle → External s { s with dpc := .lock }
  | spuriousWorker (s) (i : Fin n) : s.wpc i = .sleeping → External s { s with wpc := upd s.wpc i .acquire }
  | spuriousWaiter (s) (c : Fin m) : s.cpc c = .waitSleeping → External s { s with cpc := upd s.cpc c .waitLock }

/-- Any step of a process that was not aborted (thread_pool.h, thread_pool.cc). -/
inductive Step (s : Pool n m) : Event n m → Pool n m → Prop
  | internal {e s'} : s.fatal = false → Internal s e s' → Step s e s'
  | external {s'} : s.fatal = false → External s s' → Step s .tau s'

/-- `Run tr s`: from the constructor, some schedule produces the events `tr` (oldest first) and ends in `s` (thread_pool.h, thread_pool.cc). -/
inductive Run : List (Event n m) → Pool n m → Prop
  | start : Run [] (init n m)
  | step {tr s e s'} : Run tr s → Step s e s' → Run (tr ++ [e]) s'

end Wavemap.ThreadPool
