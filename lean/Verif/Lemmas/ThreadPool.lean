import Mathlib.Algebra.BigOperators.Fin
import Mathlib.Algebra.Order.BigOperators.Group.Finset
import Mathlib.Tactic.Linarith
import Verif.Model.ThreadPool
/-! Invariants of the thread pool. -/
namespace Wavemap.ThreadPool
variable {n m : Nat}

@[simp] theorem upd_same {k : Nat} {α : Type} (f : Fin k → α) (i : Fin k) (a : α) : upd f i a i = a := by simp [upd]

theorem upd_apply {k : Nat} {α : Type} (f : Fin k → α) (i j : Fin k) (a : α) :
    upd f i a j = if j = i then a else f j := rfl

theorem sum_upd {k : Nat} {α : Type} (g : α → Int) (f : Fin k → α) (i : Fin k) (a : α) :
    ∑ j, g (upd f i a j) = ∑ j, g (f j) - g (f i) + g a := by
  have h : ∀ j, g (upd f i a j) = g (f j) + (if j = i then g a - g (f i) else 0) := by
    intro j; by_cases hj : j = i <;> simp [upd, hj]
  simp only [h, Finset.sum_add_distrib, Finset.sum_ite_eq', Finset.mem_univ, if_true]
  omega

/-- The worker has popped a task it has not yet subtracted from `task_count_`. -/
def active : WPc → Int
  | .run _ => 1
  | .dec => 1
  | _ => 0

/-- The client has pushed a task it has not yet added to `task_count_`. -/
def adding : CPc → Int
  | .addCount => 1
  | _ => 0

def wHolds : WPc → Bool
  | .check => true
  | .notify => true
  | _ => false

def cHolds : CPc → Bool
  | .addPush _ => true
  | .addCount => true
  | .waitCheck => true
  | .waitDecided => true
  | _ => false

/-- Mutual exclusion: exactly the lock holder is inside a critical section. -/
structure LockInv (s : Pool n m) : Prop where
  w : ∀ i, wHolds (s.wpc i) = true ↔ s.lock = some (.worker i)
  c : ∀ c, cHolds (s.cpc c) = true ↔ s.lock = some (.client c)
  d : s.dpc = .set ↔ s.lock = some .dtor

def CountInv (s : Pool n m) : Prop :=
  s.count = s.queue.length + ∑ i, active (s.wpc i) - ∑ c, adding (s.cpc c)

structure TermInv (s : Pool n m) : Prop where
  term : s.terminate = true ↔ s.dpc = .notify ∨ s.dpc = .join ∨ s.dpc = .notifyWait ∨ s.dpc = .done
  exit : ∀ i, s.wpc i = .exited → s.terminate = true ∧ s.queue = []
  sleep : s.terminate = true → s.dpc ≠ .notify → ∀ i, s.wpc i ≠ .sleeping
  joined : s.dpc = .notifyWait ∨ s.dpc = .done → ∀ i, s.wpc i = .exited
  add : ∀ c, s.cpc c = .addCount → s.terminate = false

theorem adding_wakeWaiters (f : Fin m → CPc) : ∑ c, adding (wakeWaiters f c) = ∑ c, adding (f c) := by
  refine Finset.sum_congr rfl fun c _ => ?_
  unfold wakeWaiters; split
  · next h => simp [h, adding]
  · rfl

theorem active_wakeWorkers (f : Fin n → WPc) : ∑ c, active (wakeWorkers f c) = ∑ c, active (f c) := by
  refine Finset.sum_congr rfl fun c _ => ?_
  unfold wakeWorkers; split
  · next h => simp [h, active]
  · rfl

theorem cHolds_wakeWaiters (f : Fin m → CPc) (c) : cHolds (wakeWaiters f c) = cHolds (f c) := by
  unfold wakeWaiters; split
  · next h => simp [h, cHolds]
  · rfl

theorem wHolds_wakeWorkers (f : Fin n → WPc) (c) : wHolds (wakeWorkers f c) = wHolds (f c) := by
  unfold wakeWorkers; split
  · next h => simp [h, wHolds]
  · rfl

theorem LockInv.init : LockInv (init n m) := by
  constructor <;> simp [ThreadPool.init, wHolds, cHolds]

theorem LockInv.internal {s s' : Pool n m} {e} (h : LockInv s) (st : Internal s e s') : LockInv s' := by
  obtain ⟨hw, hc, hd⟩ := h
  cases st <;> refine ⟨?_, ?_, ?_⟩ <;> simp only [upd_apply, cHolds_wakeWaiters, wHolds_wakeWorkers] <;>
    grind [wHolds, cHolds]

theorem LockInv.external {s s' : Pool n m} (h : LockInv s) (st : External s s') : LockInv s' := by
  obtain ⟨hw, hc, hd⟩ := h
  cases st <;> refine ⟨?_, ?_, ?_⟩ <;> simp only [upd_apply] <;> grind [wHolds, cHolds]

theorem CountInv.init : CountInv (init n m) := by simp [CountInv, ThreadPool.init, active, adding]

theorem CountInv.internal {s s' : Pool n m} {e} (h : CountInv s) (st : Internal s e s') : CountInv s' := by
  unfold CountInv at *
  cases st <;> simp only [sum_upd, adding_wakeWaiters, active_wakeWorkers, List.length_append, List.length_cons,
    List.length_nil] <;> grind [active, adding]

theorem CountInv.external {s s' : Pool n m} (h : CountInv s) (st : External s s') : CountInv s' := by
  unfold CountInv at *
  cases st <;> simp only [sum_upd] <;> grind [active, adding]

theorem TermInv.init : TermInv (init n m) := by constructor <;> simp [ThreadPool.init]

theorem TermInv.internal {s s' : Pool n m} {e} (hl : LockInv s) (h : TermInv s) (st : Internal s e s') :
    TermInv s' := by
  obtain ⟨hw, hc, hd⟩ := hl
  obtain ⟨h1, h2, h3, h4, h5⟩ := h
  cases st <;> refine ⟨?_, ?_, ?_, ?_, ?_⟩ <;> simp only [upd_apply, wakeWorkers, wakeWaiters] <;>
    grind [wHolds, cHolds]

theorem TermInv.external {s s' : Pool n m} (h : TermInv s) (st : External s s') : TermInv s' := by
  obtain ⟨h1, h2, h3, h4, h5⟩ := h
  cases st <;> refine ⟨?_, ?_, ?_, ?_, ?_⟩ <;> simp only [upd_apply] <;> grind

/-- A queued task has a worker that will look at the queue, or a pending notification. -/
def WakeInv (s : Pool n m) : Prop :=
  s.queue ≠ [] → (∃ i, s.wpc i ≠ .sleeping ∧ s.wpc i ≠ .exited) ∨
    (∃ c, s.cpc c = .addCount ∨ s.cpc c = .addNotify)

/-- A client about to sleep or sleeping in `wait_all` while the count is zero has a notification coming. -/
def WaitInv (s : Pool n m) : Prop :=
  s.count = 0 → ∀ c, s.cpc c = .waitDecided ∨ s.cpc c = .waitSleeping →
    ∃ i, s.wpc i = .test ∨ s.wpc i = .lockNotify ∨ s.wpc i = .notify

theorem WakeInv.init : WakeInv (init n m) := by simp [WakeInv, ThreadPool.init]

theorem WakeInv.internal {s s' : Pool n m} {e} (hn : 0 < n) (hl : LockInv s) (ht : TermInv s) (h : WakeInv s)
    (st : Internal s e s') : WakeInv s' := by
  obtain ⟨h1, h2, h3, h4, h5⟩ := ht
  obtain ⟨hw, hc, hd⟩ := hl
  unfold WakeInv at *
  cases st with
  | w_lock i a b => intro hq; exact Or.inl ⟨i, by simp⟩
  | w_sleep i a b c => intro hq; exact absurd c hq
  | w_exit i a b c => intro hq; exact absurd c hq
  | w_pop i t q a b => intro hq; exact Or.inl ⟨i, by simp⟩
  | w_run i t a => intro hq; exact Or.inl ⟨i, by simp⟩
  | w_dec i a => intro hq; exact Or.inl ⟨i, by simp⟩
  | w_testZero i a => intro hq; exact Or.inl ⟨i, by simp⟩
  | w_testNonzero i a => intro hq; exact Or.inl ⟨i, by simp⟩
  | w_lockNotify i a => intro hq; exact Or.inl ⟨i, by simp⟩
  | w_notify i a => intro hq; exact Or.inl ⟨i, by simp⟩
  | a_lock c t a b =>
    intro hq; rcases h hq with h | ⟨c', h⟩
    · exact Or.inl h
    · right; refine ⟨c', ?_⟩; simp only [upd_apply]; grind
  | a_push c t a b => intro _; exact Or.inr ⟨c, by simp⟩
  | a_fatal => exact h
  | a_count c a => intro _; exact Or.inr ⟨c, by simp⟩
  | a_notify c i a b => intro _; exact Or.inl ⟨i, by simp⟩
  | a_notifyNone c a b =>
    intro hq
    refine Or.inl ⟨⟨0, hn⟩, b _, ?_⟩
    intro he; exact hq (h2 _ he).2
  | b_lock c a b =>
    intro hq; rcases h hq with h | ⟨c', h⟩
    · exact Or.inl h
    · right; refine ⟨c', ?_⟩; simp only [upd_apply]; grind
  | b_return c a b =>
    intro hq; rcases h hq with h | ⟨c', h⟩
    · exact Or.inl h
    · right; refine ⟨c', ?_⟩; simp only [upd_apply]; grind
  | b_decide c a b =>
    intro hq; rcases h hq with h | ⟨c', h⟩
    · exact Or.inl h
    · right; refine ⟨c', ?_⟩; simp only [upd_apply]; grind
  | b_sleep c a =>
    intro hq; rcases h hq with h | ⟨c', h⟩
    · exact Or.inl h
    · right; refine ⟨c', ?_⟩; simp only [upd_apply]; grind
  | d_lock => exact h
  | d_set => exact h
  | d_notify a =>
    intro hq; rcases h hq with ⟨i, h⟩ | ⟨c', h⟩
    · left; refine ⟨i, ?_⟩; simp only [wakeWorkers]; grind
    · exact Or.inr ⟨c', h⟩
  | d_join => exact h
  | d_return a =>
    intro hq
    exact absurd (h2 ⟨0, hn⟩ (h4 (Or.inl a) _)).2 hq

theorem WakeInv.external {s s' : Pool n m} (h : WakeInv s) (st : External s s') : WakeInv s' := by
  unfold WakeInv at *
  cases st with
  | callAdd c t a =>
    intro hq; rcases h hq with h | ⟨c', h⟩
    · exact Or.inl h
    · right; refine ⟨c', ?_⟩; simp only [upd_apply]; grind
  | callWait c a =>
    intro hq; rcases h hq with h | ⟨c', h⟩
    · exact Or.inl h
    · right; refine ⟨c', ?_⟩; simp only [upd_apply]; grind
  | callDtor => exact h
  | spuriousWorker i a => intro hq; exact Or.inl ⟨i, by simp⟩
  | spuriousWaiter c a =>
    intro hq; rcases h hq with h | ⟨c', h⟩
    · exact Or.inl h
    · right; refine ⟨c', ?_⟩; simp only [upd_apply]; grind

theorem active_nonneg (p : WPc) : 0 ≤ active p := by cases p <;> simp [active]
theorem adding_nonneg (p : CPc) : 0 ≤ adding p := by cases p <;> simp [adding]

/-- At most one client is between the push and the count. -/
theorem adding_le {s : Pool n m} (hl : LockInv s) (c : Fin m) (hc : s.lock = some (.client c)) :
    ∑ c, adding (s.cpc c) = adding (s.cpc c) := by
  refine Finset.sum_eq_single c (fun b _ hb => ?_) (by simp)
  have := (hl.c b).not.2 (by rw [hc]; simpa using Ne.symm hb)
  revert this
  cases s.cpc b <;> simp [cHolds, adding]

theorem adding_zero {s : Pool n m} (hl : LockInv s) (hc : ∀ c, s.lock ≠ some (.client c)) :
    ∑ c, adding (s.cpc c) = 0 := by
  refine Finset.sum_eq_zero fun b _ => ?_
  have := (hl.c b).not.2 (hc b)
  revert this
  cases s.cpc b <;> simp [cHolds, adding]

/-- A client about to increment the count has just pushed. -/
def AddInv (s : Pool n m) : Prop := ∀ c, s.cpc c = .addCount → s.queue ≠ []

theorem AddInv.init : AddInv (init n m) := by simp [AddInv, ThreadPool.init]

theorem AddInv.internal {s s' : Pool n m} {e} (hl : LockInv s) (h : AddInv s) (st : Internal s e s') :
    AddInv s' := by
  obtain ⟨hw, hc, hd⟩ := hl
  unfold AddInv at *
  cases st <;> simp only [upd_apply, wakeWaiters] <;> grind [wHolds, cHolds, List.append_eq_nil_iff]

theorem AddInv.external {s s' : Pool n m} (h : AddInv s) (st : External s s') : AddInv s' := by
  unfold AddInv at *
  cases st <;> simp only [upd_apply] <;> grind

theorem WaitInv.init : WaitInv (init n m) := by simp [WaitInv, ThreadPool.init]

/-- The count is never negative, and positive once an increment completes. -/
theorem count_after_add {s : Pool n m} (hl : LockInv s) (hct : CountInv s) (c : Fin m) (hc : s.cpc c = .addCount) :
    0 ≤ s.count + 1 - s.queue.length := by
  have hlk := (hl.c c).1 (by rw [hc]; rfl)
  have h1 := adding_le hl c hlk
  have h2 : 0 ≤ ∑ i, active (s.wpc i) := Finset.sum_nonneg fun i _ => active_nonneg _
  unfold CountInv at hct
  rw [h1, hc] at hct
  simp [adding] at hct
  omega

theorem WaitInv.internal {s s' : Pool n m} {e} (hl : LockInv s) (hct : CountInv s) (ha : AddInv s)
    (h : WaitInv s)
    (st : Internal s e s') : WaitInv s' := by
  have hadd := count_after_add hl hct
  obtain ⟨hw, hc, hd⟩ := hl
  unfold WaitInv at *
  cases st with
  | w_dec i a => exact fun _ _ _ => ⟨i, by simp⟩
  | w_testZero i a => exact fun _ _ _ => ⟨i, by simp⟩
  | w_lockNotify i a => exact fun _ _ _ => ⟨i, by simp⟩
  | w_notify i a =>
    intro h0 c hcc
    have hlk := (hw i).1 (by rw [a]; rfl)
    have := hc c
    simp only [wakeWaiters] at hcc
    grind [cHolds]
  | a_count c a => intro h0; have := hadd c a; have := List.length_pos_iff.2 (ha c a); simp only at h0; omega
  | w_testNonzero i a b => intro h0; exact absurd h0 b
  | d_notify a =>
    intro h0 c hcc
    obtain ⟨j, hj⟩ := h h0 c hcc
    refine ⟨j, ?_⟩; simp only [wakeWorkers]; grind
  | d_return a =>
    intro h0 c hcc
    refine h h0 c ?_
    simp only [wakeWaiters] at hcc; grind
  | b_decide c a b d => intro h0; exact absurd h0 d
  | b_sleep c a =>
    intro h0 c' hcc
    refine h h0 c' ?_
    simp only [upd_apply] at hcc; grind
  | _ =>
    intro h0 c' hcc
    have h' := h h0 c'
    simp only [upd_apply] at hcc ⊢
    grind

theorem WaitInv.external {s s' : Pool n m} (h : WaitInv s) (st : External s s') : WaitInv s' := by
  unfold WaitInv at *
  cases st <;> intro h0 c' hcc <;> have h' := h h0 c' <;> simp only [upd_apply] at hcc ⊢ <;> grind

/-- All invariants. -/
structure Inv (s : Pool n m) : Prop where
  lock : LockInv s
  count : CountInv s
  term : TermInv s
  add : AddInv s
  wait : WaitInv s
  wake : 0 < n → WakeInv s

theorem Inv.step {s s' : Pool n m} {e} (h : Inv s) (st : Step s e s') : Inv s' := by
  cases st with
  | internal _ st => exact ⟨h.lock.internal st, h.count.internal st, h.term.internal h.lock st,
      h.add.internal h.lock st, h.wait.internal h.lock h.count h.add st,
      fun hn => (h.wake hn).internal hn h.lock h.term st⟩
  | external _ st => exact ⟨h.lock.external st, h.count.external st, h.term.external st, h.add.external st,
      h.wait.external st, fun hn => (h.wake hn).external st⟩

theorem Run.inv {tr} {s : Pool n m} (h : Run tr s) : Inv s := by
  induction h with
  | start => exact ⟨.init, .init, .init, .init, .init, fun _ => .init⟩
  | step _ st ih => exact ih.step st

end Wavemap.ThreadPool
