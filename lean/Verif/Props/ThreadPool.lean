import Mathlib.Data.List.Nodup
import Mathlib.Data.List.Induction
import Mathlib.Data.Fintype.Basic
import Mathlib.Tactic.FinCases
import Verif.Lemmas.ThreadPool
import Verif.Lemmas.SpatialHash
/-!
# C32, C33, C34: the thread pool under every schedule

`Run tr s` ranges over all interleavings of the workers, the client threads, the destructor and spurious wake-ups,
for any number of threads and any number of calls. `tr` is the observable history.
-/
namespace Wavemap.ThreadPool
variable {n m : Nat}

/-! ## Specification: what a history says -/

/-- Tasks that were added, in order. -/
def adds (tr : List (Event n m)) : List Nat := tr.filterMap fun | .add _ t => some t | _ => none
/-- Tasks whose execution was started, in order. -/
def starts (tr : List (Event n m)) : List Nat := tr.filterMap fun | .start _ t => some t | _ => none
/-- Tasks whose execution was finished, in order. -/
def finishes (tr : List (Event n m)) : List Nat := tr.filterMap fun | .finish _ t => some t | _ => none

/-- Worker is executing task `t`. -/
def runsTask (t : Nat) (p : WPc) : Int := if p = .run t then 1 else 0

theorem runs_wake (t : Nat) (f : Fin n → WPc) : ∑ i, runsTask t (wakeWorkers f i) = ∑ i, runsTask t (f i) := by
  refine Finset.sum_congr rfl fun c _ => ?_
  unfold wakeWorkers; split
  · next h => simp [h, runsTask]
  · rfl

theorem Run.queue {tr : List (Event n m)} {s : Pool n m} (h : Run tr s) : adds tr = starts tr ++ s.queue := by
  induction h with
  | start => rfl
  | @step tr s e s' _ st ih =>
    cases st with
    | internal _ st => cases st <;> simp_all [adds, starts, List.filterMap_append]
    | external _ st => cases st <;> simp_all [adds, starts, List.filterMap_append]

theorem Run.running {tr : List (Event n m)} {s : Pool n m} (h : Run tr s) (t : Nat) :
    ((starts tr).count t : Int) = (finishes tr).count t + ∑ i, runsTask t (s.wpc i) := by
  induction h with
  | start => simp [starts, finishes, init, runsTask]
  | @step tr s e s' _ st ih =>
    cases st with
    | internal _ st =>
      cases st <;> simp only [sum_upd, runs_wake] <;>
        simp_all [finishes, starts, List.filterMap_append, runsTask, List.count_append, List.count_singleton] <;>
        grind
    | external _ st =>
      cases st <;> simp only [sum_upd] <;> simp_all [finishes, starts, List.filterMap_append, runsTask]

theorem runs_nonneg (t : Nat) (p : WPc) : 0 ≤ runsTask t p := by unfold runsTask; split <;> simp

end ThreadPool

open ThreadPool
variable {n m : Nat}

/-- **C32** Tasks are started in the order they were added, no other tasks are ever started or finished, and no task
is finished more often than it was added: at every point of every schedule. -/
theorem C32_exactly_once {tr : List (Event n m)} {s : Pool n m} (h : Run tr s) :
    starts tr <+: adds tr ∧ ∀ t, (finishes tr).count t ≤ (adds tr).count t := by
  have hq := h.queue
  refine ⟨⟨s.queue, hq.symm⟩, fun t => ?_⟩
  have hr := h.running t
  have : 0 ≤ ∑ i, runsTask t (s.wpc i) := Finset.sum_nonneg fun i _ => runs_nonneg _ _
  rw [hq, List.count_append]
  omega

/-- All tasks added so far have been executed, each exactly as often as it was added. -/
def ThreadPool.AllDone (tr : List (Event n m)) : Prop := ∀ t, (finishes tr).count t = (adds tr).count t

theorem ThreadPool.Run.allDone {tr : List (Event n m)} {s : Pool n m} (h : Run tr s) (hq : s.queue = [])
    (hi : ∀ i t, s.wpc i ≠ .run t) : AllDone tr := by
  intro t
  have h1 := h.queue
  have h2 := h.running t
  rw [hq, List.append_nil] at h1
  have : ∑ i, runsTask t (s.wpc i) = 0 := Finset.sum_eq_zero fun i _ => by simp [runsTask, hi i t]
  rw [h1]; omega

theorem ThreadPool.Inv.idle {s : Pool n m} (hi : Inv s) (hc : s.count = 0) (ha : ∑ c, adding (s.cpc c) = 0) :
    s.queue = [] ∧ ∀ i, active (s.wpc i) = 0 := by
  have hcount := hi.count
  unfold CountInv at hcount
  have h0 : 0 ≤ ∑ i, active (s.wpc i) := Finset.sum_nonneg fun i _ => active_nonneg _
  have hl : s.queue.length = 0 := by omega
  refine ⟨List.length_eq_zero_iff.1 hl, fun i => ?_⟩
  have hz : ∑ i, active (s.wpc i) = 0 := by omega
  exact (Finset.sum_eq_zero_iff_of_nonneg fun i _ => active_nonneg _).1 hz i (Finset.mem_univ i)

/-- **C32** `wait_all` is a barrier: unless the destructor has begun, at the moment a call to `wait_all` returns
every task added so far, by any thread, has finished. -/
theorem C32_wait_all_barrier {tr : List (Event n m)} {s s' : Pool n m} {c : Fin m} (h : Run tr s)
    (hret : Step s (.waitReturn c) s') (hd : s.terminate = false) : AllDone tr := by
  have hi := h.inv
  cases hret with
  | internal _ st =>
    cases st with
    | b_return _ hc hp =>
      have hlk := (hi.lock.c c).1 (by rw [hc]; rfl)
      have ha := adding_le hi.lock c hlk
      rw [hc] at ha
      have h0 : s.count = 0 := by simpa [hd] using hp
      obtain ⟨hq, hact⟩ := hi.idle h0 (by rw [ha]; rfl)
      refine h.allDone hq fun i t he => ?_
      have := hact i; rw [he] at this; simp [active] at this

/-- **C32** Destroying a pool with at least one worker finishes every added task before the destructor returns. -/
theorem C32_destructor_drains {tr : List (Event n m)} {s s' : Pool n m} (hn : 0 < n) (h : Run tr s)
    (hret : Step s .dtorReturn s') : AllDone tr ∧ ∀ i, s'.wpc i = .exited := by
  have hi := h.inv
  cases hret with
  | internal _ st =>
    cases st with
    | d_return hd =>
      have hj := hi.term.joined (Or.inl hd)
      exact ⟨h.allDone (hi.term.exit ⟨0, hn⟩ (hj _)).2 fun i t he => by simp [hj i] at he, hj⟩

/-- **C32, negation** Without the hypothesis that there is a worker the destructor does drop tasks: a pool created
with `thread_count = 0` accepts a task, never runs it, and its destructor returns. -/
theorem C32_destructor_drains_zero_workers_fails :
    ∃ (tr : List (Event 0 1)) (s : Pool 0 1), Run tr s ∧ s.dpc = .done ∧ ¬ AllDone tr := by
  have r0 : Run [] (init 0 1) := .start
  have r1 := r0.step (.external rfl (.callAdd _ 0 7 rfl))
  have r2 := r1.step (.internal rfl (.a_lock _ 0 7 rfl rfl))
  have r3 := r2.step (.internal rfl (.a_push _ 0 7 rfl rfl))
  have r4 := r3.step (.internal rfl (.a_count _ 0 rfl))
  have r5 := r4.step (.internal rfl (.a_notifyNone _ 0 rfl (fun i => i.elim0)))
  have r6 := r5.step (.external rfl (.callDtor _ rfl))
  have r7 := r6.step (.internal rfl (.d_lock _ rfl rfl))
  have r8 := r7.step (.internal rfl (.d_set _ rfl))
  have r9 := r8.step (.internal rfl (.d_notify _ rfl))
  have r10 := r9.step (.internal rfl (.d_join _ rfl (fun i => i.elim0)))
  have r11 := r10.step (.internal rfl (.d_return _ rfl))
  refine ⟨_, _, r11, rfl, fun h => ?_⟩
  have := h 7
  simp [finishes, adds] at this

/-- **C33** A non-empty queue never has all workers asleep: either some worker is on its way to the queue, or a
client is about to notify one. -/
theorem C33_no_lost_task {tr : List (Event n m)} {s : Pool n m} (hn : 0 < n) (h : Run tr s) (hq : s.queue ≠ []) :
    (∃ i, s.wpc i ≠ .sleeping ∧ s.wpc i ≠ .exited) ∨ (∃ c, s.cpc c = .addCount ∨ s.cpc c = .addNotify) :=
  h.inv.wake hn hq

/-- **C33** Whenever all tasks are done and a thread sleeps in `wait_all`, a worker is on its way to wake it. -/
theorem C33_no_lost_waiter {tr : List (Event n m)} {s : Pool n m} (h : Run tr s) (h0 : s.count = 0) (c : Fin m)
    (hc : s.cpc c = .waitSleeping) : ∃ i, s.wpc i = .test ∨ s.wpc i = .lockNotify ∨ s.wpc i = .notify :=
  h.inv.wait h0 c (Or.inr hc)

/-- **C33** No deadlock: a state in which the pool can make no step by itself (no spurious wake-up, no further call)
is one in which every added task was executed, every call to `add_task` and `wait_all` has returned, and a running
destructor has returned. -/
theorem C33_no_deadlock {tr : List (Event n m)} {s : Pool n m} (hn : 0 < n) (h : Run tr s)
    (hstuck : ∀ e s', ¬ Internal s e s') :
    AllDone tr ∧ (∀ c, s.cpc c = .idle) ∧ (∀ i, s.wpc i = .sleeping ∨ s.wpc i = .exited) ∧
      (s.dpc = .idle ∨ s.dpc = .done) := by
  have hi := h.inv
  -- nobody holds the lock
  have hlock : s.lock = none := by
    cases hl : s.lock with
    | none => rfl
    | some t =>
      exfalso
      cases t with
      | worker i =>
        have := (hi.lock.w i).2 hl
        cases hp : s.wpc i <;> simp [hp, wHolds] at this
        · cases hq : s.queue with
          | cons t q => exact hstuck _ _ (.w_pop _ i t q hp hq)
          | nil =>
            cases ht : s.terminate
            · exact hstuck _ _ (.w_sleep _ i hp ht hq)
            · exact hstuck _ _ (.w_exit _ i hp ht hq)
        · exact hstuck _ _ (.w_notify _ i hp)
      | client c =>
        have := (hi.lock.c c).2 hl
        cases hp : s.cpc c <;> simp [hp, cHolds] at this
        · cases ht : s.terminate
          · exact hstuck _ _ (.a_push _ c _ hp ht)
          · exact hstuck _ _ (.a_fatal _ c _ hp ht)
        · exact hstuck _ _ (.a_count _ c hp)
        · by_cases h0 : s.count = 0
          · exact hstuck _ _ (.b_return _ c hp (Or.inr h0))
          · cases ht : s.terminate
            · exact hstuck _ _ (.b_decide _ c hp ht h0)
            · exact hstuck _ _ (.b_return _ c hp (Or.inl ht))
        · exact hstuck _ _ (.b_sleep _ c hp)
      | dtor => exact hstuck _ _ (.d_set _ (hi.lock.d.2 hl))
  have hw : ∀ i, s.wpc i = .sleeping ∨ s.wpc i = .exited := by
    intro i
    have hnh := (hi.lock.w i).not.2 (by simp [hlock])
    cases hp : s.wpc i with
    | acquire => exact absurd (.w_lock _ i hp hlock) (hstuck _ _)
    | check => simp [hp, wHolds] at hnh
    | sleeping => simp
    | run t => exact absurd (.w_run _ i t hp) (hstuck _ _)
    | dec => exact absurd (.w_dec _ i hp) (hstuck _ _)
    | test =>
      by_cases h0 : s.count = 0
      · exact absurd (.w_testZero _ i hp h0) (hstuck _ _)
      · exact absurd (.w_testNonzero _ i hp h0) (hstuck _ _)
    | lockNotify => exact absurd (.w_lockNotify _ i hp hlock) (hstuck _ _)
    | notify => simp [hp, wHolds] at hnh
    | exited => simp
  have hc : ∀ c, s.cpc c = .idle ∨ s.cpc c = .waitSleeping := by
    intro c
    have hnh := (hi.lock.c c).not.2 (by simp [hlock])
    cases hp : s.cpc c with
    | idle => simp
    | addLock t => exact absurd (.a_lock _ c t hp hlock) (hstuck _ _)
    | addPush t => simp [hp, cHolds] at hnh
    | addCount => simp [hp, cHolds] at hnh
    | addNotify =>
      by_cases hsl : ∃ i, s.wpc i = .sleeping
      · obtain ⟨i, hsl⟩ := hsl
        exact absurd (.a_notify _ c i hp hsl) (hstuck _ _)
      · exact absurd (.a_notifyNone _ c hp (by simpa using hsl)) (hstuck _ _)
    | waitLock => exact absurd (.b_lock _ c hp hlock) (hstuck _ _)
    | waitCheck => simp [hp, cHolds] at hnh
    | waitDecided => simp [hp, cHolds] at hnh
    | waitSleeping => simp
  have hq : s.queue = [] := by
    by_contra hq
    rcases hi.wake hn hq with ⟨i, h1, h2⟩ | ⟨c, h1⟩
    · rcases hw i with h | h <;> contradiction
    · rcases hc c with h | h <;> simp [h] at h1
  have h0 : s.count = 0 := by
    have hcount := hi.count
    have e1 : ∑ i, active (s.wpc i) = 0 := Finset.sum_eq_zero fun i _ => by
      rcases hw i with h | h <;> simp [h, active]
    have e2 := adding_zero hi.lock (by simp [hlock])
    unfold CountInv at hcount
    rw [e1, e2, hq] at hcount
    simpa using hcount
  refine ⟨h.allDone hq fun i t he => ?_, fun c => ?_, hw, ?_⟩
  · rcases hw i with h | h <;> simp [h] at he
  · rcases hc c with h | h
    · exact h
    · obtain ⟨i, hi'⟩ := hi.wait h0 c (Or.inr h)
      rcases hw i with h | h <;> simp [h] at hi'
  · have hd := hi.lock.d.not.2 (by simp [hlock])
    cases hp : s.dpc with
    | idle => simp
    | lock => exact absurd (.d_lock _ hp hlock) (hstuck _ _)
    | set => exact absurd hp hd
    | notify => exact absurd (.d_notify _ hp) (hstuck _ _)
    | join =>
      have ht := hi.term.term.2 (Or.inr (Or.inl hp))
      have hs := hi.term.sleep ht (by simp [hp])
      exact absurd (.d_join _ hp fun i => (hw i).resolve_left (hs i)) (hstuck _ _)
    | notifyWait => exact absurd (.d_return _ hp) (hstuck _ _)
    | done => simp

/-! ### Every schedule of the pool's own steps is finite -/

namespace ThreadPool

/-- Work left that is paid for by tasks and calls. -/
def wWork : WPc → Int
  | .run _ => 6
  | .dec => 5
  | .test => 4
  | .lockNotify => 3
  | .notify => 2
  | _ => 0

def cWork : CPc → Int
  | .addLock _ => 11
  | .addPush _ => 10
  | .addCount => 2
  | .addNotify => 1
  | _ => 0

def dWork : DPc → Int
  | .lock => 5
  | .set => 4
  | .notify => 3
  | .join => 2
  | .notifyWait => 1
  | _ => 0

/-- Steps left before a thread sleeps, returns or takes a task. -/
def wSteps : WPc → Int
  | .acquire => 2
  | .check => 1
  | _ => 0

def cSteps : CPc → Int
  | .waitLock => 3
  | .waitCheck => 2
  | .waitDecided => 1
  | _ => 0

def work (s : Pool n m) : Int :=
  7 * s.queue.length + ∑ i, wWork (s.wpc i) + ∑ c, cWork (s.cpc c) + dWork s.dpc + (if s.fatal then 0 else 1)

def steps (s : Pool n m) : Int := ∑ i, wSteps (s.wpc i) + ∑ c, cSteps (s.cpc c)

theorem work_wakeWaiters (f : Fin m → CPc) : ∑ c, cWork (wakeWaiters f c) = ∑ c, cWork (f c) := by
  refine Finset.sum_congr rfl fun c _ => ?_
  unfold wakeWaiters; split
  · next h => simp [h, cWork]
  · rfl

theorem work_wakeWorkers (f : Fin n → WPc) : ∑ c, wWork (wakeWorkers f c) = ∑ c, wWork (f c) := by
  refine Finset.sum_congr rfl fun c _ => ?_
  unfold wakeWorkers; split
  · next h => simp [h, wWork]
  · rfl

theorem work_nonneg (s : Pool n m) : 0 ≤ work s := by
  have h1 : 0 ≤ ∑ i, wWork (s.wpc i) := Finset.sum_nonneg fun i _ => by cases s.wpc i <;> simp [wWork]
  have h2 : 0 ≤ ∑ i, cWork (s.cpc i) := Finset.sum_nonneg fun i _ => by cases s.cpc i <;> simp [cWork]
  have h3 : 0 ≤ dWork s.dpc := by cases s.dpc <;> simp [dWork]
  have h4 : (0 : Int) ≤ if s.fatal then 0 else 1 := by split <;> simp
  unfold work; omega

theorem steps_nonneg (s : Pool n m) : 0 ≤ steps s := by
  have h1 : 0 ≤ ∑ i, wSteps (s.wpc i) := Finset.sum_nonneg fun i _ => by cases s.wpc i <;> simp [wSteps]
  have h2 : 0 ≤ ∑ i, cSteps (s.cpc i) := Finset.sum_nonneg fun i _ => by cases s.cpc i <;> simp [cSteps]
  unfold steps; omega

theorem Internal.decreases {s s' : Pool n m} {e} (hf : s.fatal = false) (st : Internal s e s') :
    work s' < work s ∨ (work s' = work s ∧ steps s' < steps s) := by
  cases st <;> simp only [work, steps, sum_upd, work_wakeWaiters, work_wakeWorkers, List.length_append,
    List.length_cons, List.length_nil] <;> grind [wWork, cWork, dWork, wSteps, cSteps]

end ThreadPool

/-- **C33** Every run of the pool's own steps is finite, from any state: with `C33_no_deadlock`, whatever the
schedule, the pool runs to the state in which all tasks are done and all blocked callers have returned. -/
theorem C33_terminates :
    WellFounded fun s' s : Pool n m => s.fatal = false ∧ ∃ e, Internal s e s' := by
  refine Subrelation.wf (r := InvImage (Prod.Lex (· < ·) (· < ·)) fun s : Pool n m =>
    ((work s).toNat, (steps s).toNat)) ?_ (InvImage.wf _ (WellFounded.prod_lex wellFounded_lt wellFounded_lt))
  rintro s' s ⟨hf, e, st⟩
  have h1 := work_nonneg s
  have h2 := work_nonneg s'
  have h3 := steps_nonneg s
  have h4 := steps_nonneg s'
  show Prod.Lex _ _ _ _
  rw [Prod.lex_def]
  rcases st.decreases hf with h | ⟨h, h'⟩
  · left; simp only; omega
  · right; simp only; omega

/-- **C33** Consequently, from every reachable state the pool can be run, without any further call or spurious
wake-up, to a state where every added task has been executed and every call has returned, unless a task was added to
a pool that is being destroyed (which aborts the process). -/
theorem C33_completes (hn : 0 < n) {tr : List (Event n m)} {s : Pool n m} (h : Run tr s) :
    ∃ tr' s', Run (tr ++ tr') s' ∧
      (s'.fatal = true ∨ (AllDone (tr ++ tr') ∧ ∀ c, s'.cpc c = .idle)) := by
  induction s using (C33_terminates (n := n) (m := m)).induction generalizing tr with
  | _ s ih =>
    by_cases hf : s.fatal = true
    · exact ⟨[], s, by simpa using h, Or.inl hf⟩
    · have hf : s.fatal = false := by simpa using hf
      by_cases hs : ∃ e s', Internal s e s'
      · obtain ⟨e, s1, st⟩ := hs
        obtain ⟨tr', s', hr, hd⟩ := ih s1 ⟨hf, e, st⟩ (h.step (.internal hf st))
        exact ⟨e :: tr', s', by simpa using hr, by simpa using hd⟩
      · have hd := C33_no_deadlock hn h (by simpa using hs)
        exact ⟨[], s, by simpa using h, Or.inr (by simpa using ⟨hd.1, hd.2.1⟩)⟩

/-! ### A concrete schedule

One worker, one client: the worker goes to sleep, the client adds task 7 and calls `wait_all`, sleeps, and returns
after the worker's notification; then the pool is destroyed. -/

theorem ThreadPool.demo_run : ∃ (tr : List (Event 1 1)) (s s' : Pool 1 1), Run tr s ∧
    Step s (.waitReturn 0) s' ∧ s.terminate = false ∧ adds tr = [7] ∧ finishes tr = [7] := by
  have r0 : Run [] (init 1 1) := .start
  have r1 := r0.step (.internal rfl (.w_lock _ 0 rfl rfl))
  have r2 := r1.step (.internal rfl (.w_sleep _ 0 rfl rfl rfl))
  have r3 := r2.step (.external rfl (.callAdd _ 0 7 rfl))
  have r4 := r3.step (.internal rfl (.a_lock _ 0 7 rfl rfl))
  have r5 := r4.step (.internal rfl (.a_push _ 0 7 rfl rfl))
  have r6 := r5.step (.internal rfl (.a_count _ 0 rfl))
  have r7 := r6.step (.internal rfl (.a_notify _ 0 0 rfl rfl))
  have r8 := r7.step (.external rfl (.callWait _ 0 rfl))
  have r9 := r8.step (.internal rfl (.b_lock _ 0 rfl rfl))
  have r10 := r9.step (.internal rfl (.b_decide _ 0 rfl rfl (by decide)))
  have r11 := r10.step (.internal rfl (.b_sleep _ 0 rfl))
  have r12 := r11.step (.internal rfl (.w_lock _ 0 rfl rfl))
  have r13 := r12.step (.internal rfl (.w_pop _ 0 7 [] rfl rfl))
  have r14 := r13.step (.internal rfl (.w_run _ 0 7 rfl))
  have r15 := r14.step (.internal rfl (.w_dec _ 0 rfl))
  have r16 := r15.step (.internal rfl (.w_testZero _ 0 rfl (by decide)))
  have r17 := r16.step (.internal rfl (.w_lockNotify _ 0 rfl rfl))
  have r18 := r17.step (.internal rfl (.w_notify _ 0 rfl))
  have r19 := r18.step (.internal rfl (.b_lock _ 0 rfl rfl))
  exact ⟨_, _, _, r19, .internal rfl (.b_return _ 0 rfl (Or.inr (by decide))), rfl, rfl, rfl⟩

/-- Non-vacuity of `C32_wait_all_barrier`: there is a schedule in which `wait_all` returns after one task. -/
example : ∃ (tr : List (Event 1 1)) (s s' : Pool 1 1), Run tr s ∧ Step s (.waitReturn 0) s' ∧ AllDone tr ∧
    adds tr = [7] := by
  obtain ⟨tr, s, s', h, hs, ht, ha, _⟩ := demo_run
  exact ⟨tr, s, s', h, hs, C32_wait_all_barrier h hs ht, ha⟩

/-- Non-vacuity of `C32_destructor_drains` and `C33_no_lost_task`: a pool destroyed while a task is queued. -/
theorem ThreadPool.demo_destroy : ∃ (tr : List (Event 1 1)) (s s' : Pool 1 1), Run tr s ∧
    Step s .dtorReturn s' ∧ adds tr = [7] := by
  have r0 : Run [] (init 1 1) := .start
  have r3 := r0.step (.external rfl (.callAdd _ 0 7 rfl))
  have r4 := r3.step (.internal rfl (.a_lock _ 0 7 rfl rfl))
  have r5 := r4.step (.internal rfl (.a_push _ 0 7 rfl rfl))
  have r6 := r5.step (.internal rfl (.a_count _ 0 rfl))
  have r7 := r6.step (.internal rfl (.a_notifyNone _ 0 rfl (by decide)))
  have r8 := r7.step (.external rfl (.callDtor _ rfl))
  have r9 := r8.step (.internal rfl (.d_lock _ rfl rfl))
  have r10 := r9.step (.internal rfl (.d_set _ rfl))
  have r11 := r10.step (.internal rfl (.d_notify _ rfl))
  have r12 := r11.step (.internal rfl (.w_lock _ 0 rfl rfl))
  have r13 := r12.step (.internal rfl (.w_pop _ 0 7 [] rfl rfl))
  have r14 := r13.step (.internal rfl (.w_run _ 0 7 rfl))
  have r15 := r14.step (.internal rfl (.w_dec _ 0 rfl))
  have r16 := r15.step (.internal rfl (.w_testZero _ 0 rfl (by decide)))
  have r17 := r16.step (.internal rfl (.w_lockNotify _ 0 rfl rfl))
  have r18 := r17.step (.internal rfl (.w_notify _ 0 rfl))
  have r19 := r18.step (.internal rfl (.w_lock _ 0 rfl rfl))
  have r20 := r19.step (.internal rfl (.w_exit _ 0 rfl rfl rfl))
  have r21 := r20.step (.internal rfl (.d_join _ rfl (by decide)))
  exact ⟨_, _, _, r21, .internal rfl (.d_return _ rfl), rfl⟩

example : ∃ (tr : List (Event 1 1)), AllDone tr ∧ adds tr = [7] := by
  obtain ⟨tr, s, s', h, hs, ha⟩ := demo_destroy
  exact ⟨tr, (C32_destructor_drains (by decide) h hs).1, ha⟩

/-! ## C34: parallel updates of map blocks

Every task updates one block of a hash map through a sequence of atomic accesses, which interleave arbitrarily with
those of the other tasks. -/

namespace ThreadPool

/-- The pool together with the blocks its tasks work on. `todo i` are the accesses worker `i` has left. -/
structure Machine (n m d : Nat) (β : Type) where
  pool : Pool n m
  mem : SpatialHash d β
  todo : Fin n → List (β → β)

variable {d : Nat} {β : Type}

/-- `key t` is the block task `t` updates, `prog t` its accesses to that block
(hashed_wavelet_integrator.cc:40-46, hashed_chunked_wavelet_integrator.cc:40-46). -/
inductive MStep (key : Nat → Index d) (prog : Nat → List (β → β)) :
    Machine n m d β → Event n m → Machine n m d β → Prop
  | start (M) (i : Fin n) (t : Nat) (s') : Step M.pool (.start i t) s' →
      MStep key prog M (.start i t) { M with pool := s', todo := upd M.todo i (prog t) }
  | access (M) (i : Fin n) (t : Nat) (f : β → β) (r) : M.pool.wpc i = .run t → M.todo i = f :: r →
      MStep key prog M .tau { M with mem := M.mem.modifyBlock (key t) f, todo := upd M.todo i r }
  | finish (M) (i : Fin n) (t : Nat) (s') : Step M.pool (.finish i t) s' → M.todo i = [] →
      MStep key prog M (.finish i t) { M with pool := s' }
  | other (M) (e) (s') : Step M.pool e s' → (∀ i t, e ≠ .start i t ∧ e ≠ .finish i t) →
      MStep key prog M e { M with pool := s' }

/-- All schedules of the machine, from a new pool and the blocks `mem`. -/
inductive MRun (key : Nat → Index d) (prog : Nat → List (β → β)) (mem : SpatialHash d β) :
    List (Event n m) → Machine n m d β → Prop
  | start : MRun key prog mem [] ⟨init n m, mem, fun _ => []⟩
  | step {tr M e M'} : MRun key prog mem tr M → MStep key prog M e M' → MRun key prog mem (tr ++ [e]) M'

/-- Specification: the tasks `ts` run one after the other. -/
def sequential (key : Nat → Index d) (prog : Nat → List (β → β)) (mem : SpatialHash d β) (ts : List Nat) :
    SpatialHash d β :=
  ts.foldl (fun mm t => (prog t).foldl (fun mm f => mm.modifyBlock (key t) f) mm) mem

/-- Effect of a history of accesses. -/
def applyHist (key : Nat → Index d) (mem : SpatialHash d β) (hist : List (Nat × (β → β))) : SpatialHash d β :=
  hist.foldl (fun mm p => mm.modifyBlock (key p.1) p.2) mem

/-- Accesses of one task. -/
def accesses (t : Nat) (hist : List (Nat × (β → β))) : List (β → β) :=
  (hist.filter fun p => p.1 = t).map Prod.snd

theorem applyHist_getBlock (key : Nat → Index d) (mem : SpatialHash d β) (hist : List (Nat × (β → β)))
    (k : Index d) : (applyHist key mem hist).getBlock k
      = (mem.getBlock k).map fun b =>
          ((hist.filter fun p => key p.1 = k).map Prod.snd).foldl (fun b f => f b) b := by
  induction hist using List.reverseRecOn with
  | nil => simp [applyHist]
  | append_singleton hist p ih =>
    have e : applyHist key mem (hist ++ [p]) = (applyHist key mem hist).modifyBlock (key p.1) p.2 := by
      simp [applyHist]
    rw [e, SpatialHash.getBlock_modify]
    by_cases hk : k = key p.1
    · subst hk
      rw [if_pos rfl, ih, Option.map_map]
      congr 1
      funext b
      simp [List.filter_append]
    · rw [if_neg hk, ih]
      congr 1
      funext b
      have : decide (key p.1 = k) = false := by simpa using Ne.symm hk
      simp [List.filter_append, this]

theorem applyHist_getBlock_of_inj (key : Nat → Index d) (mem : SpatialHash d β) (ts : List Nat)
    (hist : List (Nat × (β → β))) (hmem : ∀ p ∈ hist, p.1 ∈ ts)
    (hinj : ∀ a ∈ ts, ∀ b ∈ ts, key a = key b → a = b) (t : Nat) (ht : t ∈ ts) :
    (applyHist key mem hist).getBlock (key t)
      = (mem.getBlock (key t)).map fun b => (accesses t hist).foldl (fun b f => f b) b := by
  rw [applyHist_getBlock]
  have : (hist.filter fun p => key p.1 = key t) = hist.filter fun p => p.1 = t := by
    apply List.filter_congr
    intro p hp
    have := hinj p.1 (hmem p hp) t ht
    simp only [decide_eq_decide]
    exact ⟨this, fun h => by rw [h]⟩
  rw [this]; rfl

theorem applyHist_getBlock_of_not (key : Nat → Index d) (mem : SpatialHash d β) (ts : List Nat)
    (hist : List (Nat × (β → β))) (hmem : ∀ p ∈ hist, p.1 ∈ ts) (k : Index d) (hk : ∀ t ∈ ts, key t ≠ k) :
    (applyHist key mem hist).getBlock k = mem.getBlock k := by
  rw [applyHist_getBlock]
  have : (hist.filter fun p => key p.1 = k) = [] := by
    rw [List.filter_eq_nil_iff]
    intro p hp
    simpa using hk _ (hmem p hp)
  rw [this]; simp

/-- The history of the sequential execution. -/
def seqHist (prog : Nat → List (β → β)) (ts : List Nat) : List (Nat × (β → β)) :=
  ts.flatMap fun t => (prog t).map fun f => (t, f)

theorem sequential_eq (key : Nat → Index d) (prog : Nat → List (β → β)) (mem : SpatialHash d β) (ts : List Nat) :
    sequential key prog mem ts = applyHist key mem (seqHist prog ts) := by
  unfold sequential applyHist seqHist
  rw [List.foldl_flatMap]
  congr 1
  funext mm t
  rw [List.foldl_map]

theorem accesses_seqHist (prog : Nat → List (β → β)) (ts : List Nat) (hn : ts.Nodup) (t : Nat) (ht : t ∈ ts) :
    accesses t (seqHist prog ts) = prog t := by
  induction ts with
  | nil => simp at ht
  | cons a ts ih =>
    rw [List.nodup_cons] at hn
    have e : accesses t (seqHist prog (a :: ts))
        = (if a = t then prog a else []) ++ accesses t (seqHist prog ts) := by
      unfold accesses seqHist
      rw [List.flatMap_cons, List.filter_append, List.map_append]
      refine congrArg₂ (· ++ ·) ?_ rfl
      by_cases h : a = t
      · subst h
        rw [if_pos rfl, List.filter_eq_self.2 (by simp), List.map_map]
        exact List.map_id _
      · rw [if_neg h, List.filter_eq_nil_iff.2 (by simp [h])]; rfl
    rw [e]
    by_cases h : a = t
    · subst h
      have : accesses a (seqHist prog ts) = [] := by
        unfold accesses seqHist
        rw [List.filter_eq_nil_iff.2]; · rfl
        intro p hp
        rw [List.mem_flatMap] at hp
        obtain ⟨b, hb, hp⟩ := hp
        rw [List.mem_map] at hp
        obtain ⟨f, _, rfl⟩ := hp
        simp only [decide_eq_true_eq]
        rintro rfl
        exact hn.1 hb
      rw [this, if_pos rfl, List.append_nil]
    · rw [if_neg h, List.nil_append]
      exact ih hn.2 ((List.mem_cons.1 ht).resolve_left (Ne.symm h))

/-- The pool part of a machine run. -/
theorem MRun.run {key : Nat → Index d} {prog : Nat → List (β → β)} {mem : SpatialHash d β}
    {tr : List (Event n m)} {M : Machine n m d β} (h : MRun key prog mem tr M) :
    ∃ tr', Run tr' M.pool ∧ adds tr' = adds tr ∧ starts tr' = starts tr ∧ finishes tr' = finishes tr := by
  induction h with
  | start => exact ⟨[], .start, rfl, rfl, rfl⟩
  | @step tr M e M' _ st ih =>
    obtain ⟨tr', hr, ha, hs, hf⟩ := ih
    have key : ∀ s', Step M.pool e s' → ∃ tr', Run tr' s' ∧ adds tr' = adds (tr ++ [e]) ∧
        starts tr' = starts (tr ++ [e]) ∧ finishes tr' = finishes (tr ++ [e]) := fun s' hst =>
      ⟨tr' ++ [e], hr.step hst, by unfold adds at *; simp only [List.filterMap_append, ha],
        by unfold starts at *; simp only [List.filterMap_append, hs],
        by unfold finishes at *; simp only [List.filterMap_append, hf]⟩
    cases st with
    | start i t s' hst => exact key _ hst
    | finish i t s' hst _ => exact key _ hst
    | other _ s' hst _ => exact key _ hst
    | access i t f r h1 h2 =>
      exact ⟨tr', hr, by simpa [adds, List.filterMap_append] using ha,
        by simpa [starts, List.filterMap_append] using hs,
        by simpa [finishes, List.filterMap_append] using hf⟩

theorem adds_step_nodup {tr : List (Event n m)} {e : Event n m} (h : (adds (tr ++ [e])).Nodup) :
    (adds tr).Nodup := by
  unfold adds at *
  rw [List.filterMap_append] at h
  exact (List.nodup_append.1 h).1

/-- No task is run by two workers, and no finished task is running, if task identities are distinct. -/
theorem Run.unique {tr : List (Event n m)} {s : Pool n m} (h : Run tr s) (hn : (adds tr).Nodup) (t : Nat)
    (i : Fin n) (hi : s.wpc i = .run t) :
    t ∈ starts tr ∧ t ∉ finishes tr ∧ ∀ j, s.wpc j = .run t → j = i := by
  have h1 := h.running t
  have h2 : (starts tr).count t ≤ 1 := by
    have : (starts tr).Sublist (adds tr) := (C32_exactly_once h).1.sublist
    exact List.nodup_iff_count_le_one.1 (hn.sublist this) t
  have h3 : runsTask t (s.wpc i) ≤ ∑ i, runsTask t (s.wpc i) :=
    Finset.single_le_sum (f := fun i => runsTask t (s.wpc i)) (fun j _ => runs_nonneg _ _) (Finset.mem_univ i)
  have h4 : runsTask t (s.wpc i) = 1 := by simp [runsTask, hi]
  refine ⟨List.count_pos_iff.1 (by omega), fun hf => ?_, fun j hj => ?_⟩
  · have := List.count_pos_iff.2 hf; omega
  · by_contra hji
    have h5 : runsTask t (s.wpc i) + runsTask t (s.wpc j) ≤ ∑ i, runsTask t (s.wpc i) := by
      have := Finset.sum_le_sum_of_subset_of_nonneg (f := fun i => runsTask t (s.wpc i))
        (Finset.subset_univ {i, j}) (fun j _ _ => runs_nonneg _ _)
      rwa [Finset.sum_pair (Ne.symm hji)] at this
    have h6 : runsTask t (s.wpc j) = 1 := by simp [runsTask, hj]
    omega

/-- Progress of the tasks in terms of a history of accesses. -/
structure MInv (key : Nat → Index d) (prog : Nat → List (β → β)) (mem : SpatialHash d β)
    (tr : List (Event n m)) (M : Machine n m d β) (hist : List (Nat × (β → β))) : Prop where
  mem_eq : M.mem = applyHist key mem hist
  started : ∀ p ∈ hist, p.1 ∈ starts tr
  running : ∀ i t, M.pool.wpc i = .run t → accesses t hist ++ M.todo i = prog t
  finished : ∀ t ∈ finishes tr, accesses t hist = prog t

theorem accesses_of_not_started {tr : List (Event n m)} {hist : List (Nat × (β → β))}
    (h : ∀ p ∈ hist, p.1 ∈ starts tr) {t : Nat} (ht : t ∉ starts tr) : accesses t hist = [] := by
  unfold accesses
  rw [List.filter_eq_nil_iff.2]; · rfl
  intro p hp
  simp only [decide_eq_true_eq]
  rintro rfl
  exact ht (h p hp)

theorem Step.other {s s' : Pool n m} {e : Event n m} (st : Step s e s')
    (he : ∀ i t, e ≠ .start i t ∧ e ≠ .finish i t) (j : Fin n) (t : Nat) (h : s'.wpc j = .run t) :
    s.wpc j = .run t := by
  cases st with
  | internal _ st => cases st <;> simp only [upd_apply, wakeWorkers] at h <;> grind
  | external _ st => cases st <;> simp only [upd_apply] at h <;> grind

theorem MRun.minv {key : Nat → Index d} {prog : Nat → List (β → β)} {mem : SpatialHash d β}
    {tr : List (Event n m)} {M : Machine n m d β} (h : MRun key prog mem tr M) (hn : (adds tr).Nodup) :
    ∃ hist, MInv key prog mem tr M hist := by
  induction h with
  | start => exact ⟨[], rfl, by simp, by simp [init], by simp [finishes]⟩
  | @step tr M e M' hm st ih =>
    have hn0 := adds_step_nodup hn
    obtain ⟨hist, h1, h2, h3, h4⟩ := ih hn0
    obtain ⟨tr', hr, ha, hs, hf⟩ := hm.run
    have hn1 : (adds tr').Nodup := by rw [ha]; exact hn0
    obtain ⟨tr2, hr2, ha2, hs2, hf2⟩ := (hm.step st).run
    have hn2 : (starts (tr ++ [e])).Nodup := by
      rw [← hs2]; rw [← ha2] at hn
      exact hn.sublist (C32_exactly_once hr2).1.sublist
    cases st with
    | start i t s' hst =>
      have hnew : t ∉ starts tr := by
        have e' : starts (tr ++ [Event.start (m := m) i t]) = starts tr ++ [t] := by
          simp [starts, List.filterMap_append]
        rw [e', List.nodup_append] at hn2
        intro hc; exact hn2.2.2 t hc t (by simp) rfl
      have hw : s'.wpc = upd M.pool.wpc i (.run t) := by
        cases hst with
        | internal _ st => cases st; rfl
      refine ⟨hist, h1, fun p hp => ?_, fun j t' hj => ?_, fun t' ht' => h4 t' ?_⟩
      · have := h2 p hp
        simp only [starts, List.filterMap_append, List.mem_append] at this ⊢
        exact Or.inl this
      · simp only [hw, upd_apply] at hj ⊢
        by_cases hji : j = i
        · rw [if_pos hji] at hj ⊢
          cases hj
          rw [accesses_of_not_started h2 hnew]; rfl
        · rw [if_neg hji] at hj ⊢
          exact h3 j t' hj
      · simpa [finishes, List.filterMap_append] using ht'
    | access i t f r hi ht =>
      obtain ⟨u1, u2, u3⟩ := hr.unique hn1 t i hi
      rw [hs] at u1; rw [hf] at u2
      have acc : ∀ t', accesses t' (hist ++ [(t, f)]) = accesses t' hist ++ if t = t' then [f] else [] := by
        intro t'
        by_cases htt : t = t' <;> simp [accesses, List.filter_append, htt]
      refine ⟨hist ++ [(t, f)], ?_, fun p hp => ?_, fun j t' hj => ?_, fun t' ht' => ?_⟩
      · simp only [h1, applyHist, List.foldl_append, List.foldl_cons, List.foldl_nil]
      · have e' : starts (tr ++ [Event.tau (n := n) (m := m)]) = starts tr := by
          simp [starts, List.filterMap_append]
        rw [e']
        rcases List.mem_append.1 hp with hp | hp
        · exact h2 p hp
        · rw [List.mem_singleton] at hp; subst hp; exact u1
      · simp only [acc, upd_apply] at hj ⊢
        by_cases htt : t = t'
        · subst htt
          have := u3 j hj
          subst this
          rw [if_pos rfl, if_pos rfl, List.append_assoc]
          have := h3 j t hj
          rw [ht] at this
          simpa using this
        · have hji : j ≠ i := by rintro rfl; rw [hi] at hj; cases hj; exact htt rfl
          rw [if_neg htt, if_neg hji, List.append_nil]
          exact h3 j t' hj
      · have ht' : t' ∈ finishes tr := by simpa [finishes, List.filterMap_append] using ht'
        rw [acc, if_neg (by rintro rfl; exact u2 ht'), List.append_nil]
        exact h4 t' ht'
    | finish i t s' hst ht =>
      obtain ⟨hi, hw⟩ : M.pool.wpc i = .run t ∧ s'.wpc = upd M.pool.wpc i .dec := by
        cases hst with
        | internal _ st => cases st with | w_run _ _ h => exact ⟨h, rfl⟩
      refine ⟨hist, h1, fun p hp => ?_, fun j t' hj => ?_, fun t' ht' => ?_⟩
      · have := h2 p hp
        simp only [starts, List.filterMap_append, List.mem_append] at this ⊢
        exact Or.inl this
      · simp only [hw, upd_apply] at hj ⊢
        by_cases hji : j = i
        · rw [if_pos hji] at hj; cases hj
        · rw [if_neg hji] at hj
          exact h3 j t' hj
      · have e' : finishes (tr ++ [Event.finish (m := m) i t]) = finishes tr ++ [t] := by
          simp [finishes, List.filterMap_append]
        rw [e', List.mem_append, List.mem_singleton] at ht'
        rcases ht' with ht' | rfl
        · exact h4 t' ht'
        · have := h3 i t' hi
          rw [ht, List.append_nil] at this
          exact this
    | other _ s' hst he =>
      refine ⟨hist, h1, fun p hp => ?_, fun j t' hj => h3 j t' (hst.other he j t' hj), fun t' ht' => h4 t' ?_⟩
      · have := h2 p hp
        simp only [starts, List.filterMap_append, List.mem_append] at this ⊢
        exact Or.inl this
      · cases e <;> first
          | simpa [finishes, List.filterMap_append] using ht'
          | exact absurd rfl (he _ _).2

end ThreadPool

open ThreadPool in
/-- **C34** Schedule independence: tasks that each update their own block, added to the pool and awaited with
`wait_all`, leave the blocks as if they had been run one after the other, in any order `ts`, whatever the schedule and
however their accesses interleave. -/
theorem C34_schedule_independent {d : Nat} {β : Type} {key : Nat → Index d} {prog : Nat → List (β → β)}
    {mem : SpatialHash d β} {tr : List (Event n m)} {M : Machine n m d β} (h : MRun key prog mem tr M)
    {c : Fin m} {s' : Pool n m} (hret : Step M.pool (.waitReturn c) s') (hd : M.pool.terminate = false)
    (hdistinct : ((adds tr).map key).Nodup) (ts : List Nat) (hts : ts.Perm (adds tr)) (k : Index d) :
    M.mem.getBlock k = (sequential key prog mem ts).getBlock k := by
  have hn : (adds tr).Nodup := List.Nodup.of_map key hdistinct
  obtain ⟨hist, h1, h2, h3, h4⟩ := h.minv hn
  obtain ⟨tr', hr, ha, hs, hf⟩ := h.run
  have hdone := C32_wait_all_barrier hr hret hd
  have hall : ∀ t ∈ ts, t ∈ finishes tr := by
    intro t ht
    have h5 := hdone t
    rw [ha, hf] at h5
    exact List.count_pos_iff.1 (h5 ▸ List.count_pos_iff.2 (hts.mem_iff.1 ht))
  have hmem1 : ∀ p ∈ hist, p.1 ∈ ts := fun p hp => by
    have := h2 p hp
    rw [← hs] at this
    rw [hts.mem_iff, ← ha]
    exact (C32_exactly_once hr).1.sublist.subset this
  have hmem2 : ∀ p ∈ seqHist prog ts, p.1 ∈ ts := fun p hp => by
    unfold seqHist at hp
    rw [List.mem_flatMap] at hp
    obtain ⟨t, ht, hp⟩ := hp
    rw [List.mem_map] at hp
    obtain ⟨f, _, rfl⟩ := hp
    exact ht
  have hinj : ∀ a ∈ ts, ∀ b ∈ ts, key a = key b → a = b := fun a ha' b hb hab =>
    List.inj_on_of_nodup_map hdistinct (hts.mem_iff.1 ha') (hts.mem_iff.1 hb) hab
  rw [h1, sequential_eq]
  by_cases hk : ∃ t ∈ ts, key t = k
  · obtain ⟨t, ht, rfl⟩ := hk
    rw [applyHist_getBlock_of_inj key mem ts hist hmem1 hinj t ht,
      applyHist_getBlock_of_inj key mem ts _ hmem2 hinj t ht, h4 t (hall t ht),
      accesses_seqHist prog ts (hts.nodup_iff.2 hn) t ht]
  · have hk' : ∀ t ∈ ts, key t ≠ k := fun t ht he => hk ⟨t, ht, he⟩
    rw [applyHist_getBlock_of_not key mem ts hist hmem1 k hk',
      applyHist_getBlock_of_not key mem ts _ hmem2 k hk']

namespace ThreadPool
/-- Blocks of the example below: one per task, holding a number. -/
def demoKey (t : Nat) : Index 1 := fun _ => (t : Int)
/-- Accesses of the example tasks. -/
def demoProg (t : Nat) : List (Nat → Nat) := [fun b => b + t, fun b => b * 2]
def demoMem : SpatialHash 1 Nat := [(demoKey 1, 10), (demoKey 2, 20), (demoKey 3, 30)]

/-- Two workers run tasks 1 and 2 with interleaved accesses while the client waits. -/
theorem demo_interleaved : ∃ (tr : List (Event 2 1)) (M : Machine 2 1 1 Nat) (s' : Pool 2 1),
    MRun demoKey demoProg demoMem tr M ∧ Step M.pool (.waitReturn 0) s' ∧ M.pool.terminate = false ∧
      adds tr = [1, 2] ∧ M.mem = [(demoKey 1, 22), (demoKey 2, 44), (demoKey 3, 30)] := by
  have oth : ∀ {M : Machine 2 1 1 Nat} {tr e s'}, MRun demoKey demoProg demoMem tr M → Step M.pool e s' →
      (∀ i t, e ≠ .start i t ∧ e ≠ .finish i t) →
      MRun demoKey demoProg demoMem (tr ++ [e]) { M with pool := s' } := fun h hs he => h.step (.other _ _ _ hs he)
  have r0 : MRun demoKey demoProg demoMem [] (⟨init 2 1, demoMem, fun _ => []⟩ : Machine 2 1 1 Nat) := .start
  have a1 := oth r0 (.external rfl (.callAdd _ 0 1 rfl)) (by simp)
  have a2 := oth a1 (.internal rfl (.a_lock _ 0 1 rfl rfl)) (by simp)
  have a3 := oth a2 (.internal rfl (.a_push _ 0 1 rfl rfl)) (by simp)
  have a4 := oth a3 (.internal rfl (.a_count _ 0 rfl)) (by simp)
  have a5 := oth a4 (.internal rfl (.a_notifyNone _ 0 rfl (by decide))) (by simp)
  have b1 := oth a5 (.external rfl (.callAdd _ 0 2 rfl)) (by simp)
  have b2 := oth b1 (.internal rfl (.a_lock _ 0 2 rfl rfl)) (by simp)
  have b3 := oth b2 (.internal rfl (.a_push _ 0 2 rfl rfl)) (by simp)
  have b4 := oth b3 (.internal rfl (.a_count _ 0 rfl)) (by simp)
  have b5 := oth b4 (.internal rfl (.a_notifyNone _ 0 rfl (by decide))) (by simp)
  have c1 := oth b5 (.external rfl (.callWait _ 0 rfl)) (by simp)
  have w1 := oth c1 (.internal rfl (.w_lock _ 0 rfl rfl)) (by simp)
  have w2 := w1.step (.start _ 0 1 _ (.internal rfl (.w_pop _ 0 1 [2] rfl rfl)))
  have w3 := oth w2 (.internal rfl (.w_lock _ 1 rfl rfl)) (by simp)
  have w4 := w3.step (.start _ 1 2 _ (.internal rfl (.w_pop _ 1 2 [] rfl rfl)))
  have x1 := w4.step (.access _ 0 1 (fun b => b + 1) [fun b => b * 2] rfl rfl)
  have x2 := x1.step (.access _ 1 2 (fun b => b + 2) [fun b => b * 2] rfl rfl)
  have x3 := x2.step (.access _ 1 2 (fun b => b * 2) [] rfl rfl)
  have x4 := x3.step (.access _ 0 1 (fun b => b * 2) [] rfl rfl)
  have y1 := x4.step (.finish _ 0 1 _ (.internal rfl (.w_run _ 0 1 rfl)) rfl)
  have y2 := y1.step (.finish _ 1 2 _ (.internal rfl (.w_run _ 1 2 rfl)) rfl)
  have y3 := oth y2 (.internal rfl (.w_dec _ 0 rfl)) (by simp)
  have y4 := oth y3 (.internal rfl (.w_dec _ 1 rfl)) (by simp)
  have y5 := oth y4 (.internal rfl (.b_lock _ 0 rfl rfl)) (by simp)
  refine ⟨_, _, _, y5, .internal rfl (.b_return _ 0 rfl (Or.inr (by decide))), rfl, rfl, ?_⟩
  rfl

end ThreadPool

open ThreadPool in
/-- Non-vacuity of `C34_schedule_independent`. -/
example : ∃ (tr : List (Event 2 1)) (M : Machine 2 1 1 Nat), MRun demoKey demoProg demoMem tr M ∧
    ∀ k, M.mem.getBlock k = (sequential demoKey demoProg demoMem [2, 1]).getBlock k := by
  obtain ⟨tr, M, s', h, hs, ht, ha, _⟩ := demo_interleaved
  exact ⟨tr, M, h, fun k => C34_schedule_independent h hs ht (by rw [ha]; decide) [2, 1]
    (by rw [ha]; decide) k⟩

open ThreadPool in
/-- **C34, necessity of distinct blocks** Two tasks updating the same block do not commute. -/
theorem C34_same_block_fails : ∃ (key : Nat → Index 1) (prog : Nat → List (Nat → Nat)) (mem : SpatialHash 1 Nat)
    (k : Index 1),
    (sequential key prog mem [1, 2]).getBlock k ≠ (sequential key prog mem [2, 1]).getBlock k :=
  ⟨fun _ _ => 0, fun t => if t = 1 then [fun b => b + 1] else [fun b => b * 2], [(fun _ => 0, 5)], fun _ => 0,
    by decide⟩

end Wavemap
