import Mathlib.Data.List.Nodup
import Mathlib.Tactic.Linarith
import Mathlib.Tactic.NormNum
import Mathlib.Tactic.Ring
import Verif.Model.Pipeline
import Verif.Props.Aabb
import Verif.Props.ChunkedWavelet
/-!
# C53 (pipeline), C54 (periodic operations and stopwatch), C64 (cropping)
-/
namespace Wavemap

/-! ## C53: specification -/

/-- The calls that change what is registered. -/
inductive PipelineCall (I O : Type) where
  | addIntegrator (name : String) (integrator : Option I)
  | removeIntegrator (name : String)
  | clearIntegrators
  | addOperation (operation : Option O)
  | clearOperations
  | clear

/-- What a call returns: a pointer (`none` is the null pointer), a flag, or nothing. -/
inductive PipelineReply (I O : Type) where
  | integrator (i : Option I)
  | existed (b : Bool)
  | operation (o : Option O)
  | nothing
deriving DecidableEq

/-- Specification: a table of integrators by name and a sequence of operations. -/
structure Registry (I O : Type) where
  integrator : String → Option I
  operations : List O

variable {I O W : Type}

/-- Specification: the effect and result of a call. -/
def PipelineCall.spec (r : Registry I O) : PipelineCall I O → PipelineReply I O × Registry I O
  | .addIntegrator name integrator =>
    match integrator, r.integrator name with
    | some i, none => (.integrator (some i), { r with integrator := fun n => if n = name then some i else r.integrator n })
    | _, _ => (.integrator none, r)
  | .removeIntegrator name =>
    (.existed (r.integrator name).isSome, { r with integrator := fun n => if n = name then none else r.integrator n })
  | .clearIntegrators => (.nothing, { r with integrator := fun _ => none })
  | .addOperation operation => (.operation operation, { r with operations := r.operations ++ operation.toList })
  | .clearOperations => (.nothing, { r with operations := [] })
  | .clear => (.nothing, ⟨fun _ => none, []⟩)

/-- The call on the modelled pipeline. -/
def PipelineCall.run (p : Pipeline I O) : PipelineCall I O → PipelineReply I O × Pipeline I O
  | .addIntegrator name i => let r := p.addIntegrator name i; (.integrator r.1, r.2)
  | .removeIntegrator name => let r := p.removeIntegrator name; (.existed r.1, r.2)
  | .clearIntegrators => (.nothing, p.clearIntegrators)
  | .addOperation o => let r := p.addOperation o; (.operation r.1, r.2)
  | .clearOperations => (.nothing, p.clearOperations)
  | .clear => (.nothing, p.clear)

/-- Run a list of steps, collecting the replies. -/
def runCalls {S C R : Type} (step : S → C → R × S) : S → List C → List R × S
  | s, [] => ([], s)
  | s, c :: cs => let r := step s c; let rest := runCalls step r.2 cs; (r.1 :: rest.1, rest.2)

/-! ## C53: proofs -/

namespace Pipeline

/-- The pipeline holds what the registry says. -/
structure Holds (p : Pipeline I O) (r : Registry I O) : Prop where
  nodup : (p.integrators.map Prod.fst).Nodup
  get : ∀ n, p.getIntegrator n = r.integrator n
  ops : p.operations = r.operations

theorem has_iff (p : Pipeline I O) (n : String) : p.hasIntegrator n = (p.getIntegrator n).isSome := by
  unfold hasIntegrator getIntegrator
  rw [Option.isSome_map, Bool.eq_iff_iff, List.any_eq_true, List.find?_isSome]

theorem get_none_iff (p : Pipeline I O) (n : String) : p.getIntegrator n = none ↔ n ∉ p.integrators.map Prod.fst := by
  unfold getIntegrator
  rw [Option.map_eq_none_iff, List.find?_eq_none]
  simp only [beq_iff_eq, List.mem_map, not_exists, not_and]

theorem get_append (l : List (String × I)) (ops : List O) (name n : String) (i : I) (h : name ∉ l.map Prod.fst) :
    (⟨l ++ [(name, i)], ops⟩ : Pipeline I O).getIntegrator n
      = if n = name then some i else (⟨l, ops⟩ : Pipeline I O).getIntegrator n := by
  unfold getIntegrator
  dsimp only
  rw [List.find?_append]
  by_cases hn : n = name
  · subst hn
    have : l.find? (fun e => e.1 == n) = none := by
      rw [List.find?_eq_none]
      intro e he hx
      exact h (List.mem_map.2 ⟨e, he, eq_of_beq hx⟩)
    rw [this, if_pos rfl]
    simp
  · rw [if_neg hn]
    have : List.find? (fun e : String × I => e.1 == n) [(name, i)] = none := by
      simp [Ne.symm hn]
    rw [this]; simp

theorem get_remove (p : Pipeline I O) (name n : String) :
    (p.removeIntegrator name).2.getIntegrator n = if n = name then none else p.getIntegrator n := by
  unfold removeIntegrator getIntegrator
  dsimp only
  rw [List.find?_filter]
  by_cases hn : n = name
  · subst hn
    rw [if_pos rfl, Option.map_eq_none_iff, List.find?_eq_none]
    intro e _
    simp
  · rw [if_neg hn]
    congr 2
    funext e
    by_cases he : e.1 = n
    · simp [he, hn]
    · simp [he]

theorem Holds.step {p : Pipeline I O} {r : Registry I O} (h : p.Holds r) (c : PipelineCall I O) :
    (c.run p).1 = (c.spec r).1 ∧ (c.run p).2.Holds (c.spec r).2 := by
  cases c with
  | addIntegrator name i =>
    cases i with
    | none => exact ⟨rfl, h⟩
    | some i =>
      simp only [PipelineCall.run, PipelineCall.spec, addIntegrator]
      rw [p.has_iff name, h.get name]
      cases e : r.integrator name with
      | some j => exact ⟨rfl, h⟩
      | none =>
        have hn : name ∉ p.integrators.map Prod.fst := (p.get_none_iff name).1 ((h.get name).trans e)
        refine ⟨rfl, ?_, fun n => ?_, h.ops⟩
        · show ((p.integrators ++ [(name, i)]).map Prod.fst).Nodup
          rw [List.map_append, List.nodup_append]
          refine ⟨h.nodup, by simp, ?_⟩
          intro a ha b hb
          simp only [List.map_cons, List.map_nil, List.mem_singleton] at hb
          rw [hb]; rintro rfl; exact hn ha
        · show (⟨p.integrators ++ [(name, i)], p.operations⟩ : Pipeline I O).getIntegrator n = _
          rw [get_append _ _ _ _ _ hn]
          exact if_congr Iff.rfl rfl (h.get n)
  | removeIntegrator name =>
    refine ⟨?_, ?_, fun n => ?_, h.ops⟩
    · show PipelineReply.existed (p.hasIntegrator name) = .existed _
      rw [p.has_iff, h.get]
    · exact h.nodup.sublist ((List.filter_sublist (l := p.integrators)).map _)
    · show (p.removeIntegrator name).2.getIntegrator n = _
      rw [get_remove, h.get n]; rfl
  | clearIntegrators => exact ⟨rfl, List.nodup_nil, fun _ => rfl, h.ops⟩
  | addOperation o =>
    cases o with
    | none => exact ⟨rfl, h.nodup, h.get, by simp [PipelineCall.run, PipelineCall.spec, addOperation, h.ops]⟩
    | some o => exact ⟨rfl, h.nodup, h.get, by simp [PipelineCall.run, PipelineCall.spec, addOperation, h.ops]⟩
  | clearOperations => exact ⟨rfl, h.nodup, h.get, rfl⟩
  | clear => exact ⟨rfl, List.nodup_nil, fun _ => rfl, rfl⟩

theorem Holds.runCalls {p : Pipeline I O} {r : Registry I O} (h : p.Holds r) (cs : List (PipelineCall I O)) :
    (Wavemap.runCalls PipelineCall.run p cs).1 = (Wavemap.runCalls PipelineCall.spec r cs).1 ∧
      (Wavemap.runCalls PipelineCall.run p cs).2.Holds (Wavemap.runCalls PipelineCall.spec r cs).2 := by
  induction cs generalizing p r with
  | nil => exact ⟨rfl, h⟩
  | cons c cs ih =>
    obtain ⟨h1, h2⟩ := h.step c
    obtain ⟨h3, h4⟩ := ih h2
    exact ⟨by simp only [Wavemap.runCalls]; rw [h1, h3], h4⟩

end Pipeline

/-! ## C53: properties -/

/-- **C53** After any sequence of calls, every reply so far, what is registered under every name, and the list of
operations are those of the specification: a table from names to integrators and a sequence of operations, where adding
under a taken name (or adding the null pointer) changes nothing and returns the null pointer, removing affects that name
only, and operations are appended. No name is registered twice. -/
theorem C53_registry (calls : List (PipelineCall I O)) :
    let run := runCalls PipelineCall.run Pipeline.create calls
    let spec := runCalls PipelineCall.spec ⟨fun _ => none, []⟩ calls
    run.1 = spec.1 ∧
    (∀ name, run.2.getIntegrator name = spec.2.integrator name) ∧
    (∀ name, run.2.hasIntegrator name = (spec.2.integrator name).isSome) ∧
    (∀ name i, (name, i) ∈ run.2.integrators ↔ spec.2.integrator name = some i) ∧
    (run.2.integrators.map Prod.fst).Nodup ∧
    run.2.operations = spec.2.operations := by
  have h0 : (Pipeline.create : Pipeline I O).Holds ⟨fun _ => none, []⟩ := ⟨List.nodup_nil, fun _ => rfl, rfl⟩
  obtain ⟨h1, h2⟩ := h0.runCalls calls
  refine ⟨h1, h2.get, fun n => by rw [Pipeline.has_iff, h2.get], fun name i => ?_, h2.nodup, h2.ops⟩
  rw [← h2.get]
  have hn := h2.nodup
  generalize (runCalls PipelineCall.run Pipeline.create calls).2 = p at hn
  unfold Pipeline.getIntegrator
  obtain ⟨l, ops⟩ := p
  dsimp only at hn ⊢
  clear h0 h1 h2
  induction l with
  | nil => simp
  | cons e l ih =>
    rw [List.map_cons, List.nodup_cons] at hn
    rw [List.mem_cons, List.find?_cons]
    by_cases he : e.1 = name
    · have hb : (e.1 == name) = true := by simp [he]
      simp only [hb, Option.map_some, Option.some.injEq]
      constructor
      · rintro (h | h)
        · rw [← h]
        · exact absurd (List.mem_map.2 ⟨(name, i), h, he.symm⟩) hn.1
      · intro h; exact Or.inl (Prod.ext he.symm h.symm)
    · have hb : (e.1 == name) = false := by simp [he]
      simp only [hb]
      refine Iff.trans ?_ (ih hn.2)
      constructor
      · rintro (h | h)
        · exact absurd (by rw [← h]) he
        · exact h
      · exact Or.inr

/-- The second integrator named "a" is refused and the first one stays; the null pointer is never registered. -/
example :
    let calls : List (PipelineCall Nat Nat) := [.addIntegrator "a" (some 1), .addIntegrator "a" (some 2),
      .addIntegrator "b" none, .addOperation (some 7), .removeIntegrator "c", .addOperation (some 5)]
    let r := runCalls PipelineCall.run Pipeline.create calls
    r.1 = [.integrator (some 1), .integrator none, .integrator none, .operation (some 7), .existed false,
      .operation (some 5)] ∧
    r.2.integrators = [("a", 1)] ∧ r.2.operations = [7, 5] := by decide

/-- **C53** Running a list of integrators runs, in list order, those before the first name that is not registered, each on
the state the previous one left, and reports whether all names were registered. -/
theorem C53_run_order (p : Pipeline I O) (integrate : I → W → W) (names : List String) (w : W) :
    ∃ (known : List String) (rest : List String) (objects : List I),
      names = known ++ rest ∧ known.map p.getIntegrator = objects.map some ∧
      (rest = [] ∨ ∃ missing later, rest = missing :: later ∧ p.getIntegrator missing = none) ∧
      (p.runIntegrators integrate names w).1 = rest.isEmpty ∧
      (p.runIntegrators integrate names w).2 = objects.foldl (fun w i => integrate i w) w := by
  induction names generalizing w with
  | nil => exact ⟨[], [], [], rfl, rfl, Or.inl rfl, rfl, rfl⟩
  | cons n ns ih =>
    cases e : p.getIntegrator n with
    | none =>
      refine ⟨[], n :: ns, [], rfl, rfl, Or.inr ⟨n, ns, rfl, e⟩, ?_, ?_⟩ <;> simp [Pipeline.runIntegrators, e]
    | some i =>
      obtain ⟨known, rest, objects, h1, h2, h3, h4, h5⟩ := ih (integrate i w)
      refine ⟨n :: known, rest, i :: objects, by rw [h1]; rfl, by rw [List.map_cons, List.map_cons, h2, e], h3, ?_, ?_⟩
      · simp only [Pipeline.runIntegrators, e]; exact h4
      · simp only [Pipeline.runIntegrators, e]; exact h5

/-- **C53** The report of a run is `true` exactly when every name is registered. -/
theorem C53_run_report (p : Pipeline I O) (integrate : I → W → W) (names : List String) (w : W) :
    (p.runIntegrators integrate names w).1 = true ↔ ∀ n ∈ names, p.hasIntegrator n = true := by
  induction names generalizing w with
  | nil => simp [Pipeline.runIntegrators]
  | cons n ns ih =>
    rw [List.forall_mem_cons, p.has_iff]
    cases e : p.getIntegrator n with
    | none => simp [Pipeline.runIntegrators, e]
    | some i =>
      simp only [Pipeline.runIntegrators, e, Option.isSome_some, true_and]
      exact ih _

/-- **C53** The whole pipeline: the integrators run first, then every registered operation runs once, unforced, in insertion
order, on the resulting state, whether or not all integrators were found; the report is that of the integrators. -/
theorem C53_pipeline (p : Pipeline I O) (integrate : I → W → W) (run : O → Bool → W → W) (names : List String) (w : W) :
    (p.runPipeline integrate run names w).1 = (p.runIntegrators integrate names w).1 ∧
    (p.runPipeline integrate run names w).2
      = p.operations.foldl (fun w o => run o false w) (p.runIntegrators integrate names w).2 := ⟨rfl, rfl⟩

/-- The unknown name "x" stops the integrators but not the operations. The state is a log of what ran. -/
example : (⟨[("a", 1), ("b", 2)], [7, 5]⟩ : Pipeline Nat Nat).runPipeline (W := List Nat) (fun i w => w ++ [i])
    (fun o force w => w ++ [if force then 0 else o]) ["b", "a", "x", "b"] [] = (false, [2, 1, 7, 5]) := by decide

/-! ## C54: specification -/

/-- Specification: which of the calls of an operation execute. `calls` are (forced?, clock reading) and `ran` tells which
executed. An unforced call executes exactly if more than the period elapsed since the operation's initial stamp and since
every earlier executed call. -/
def RateLimited (period start : ℚ) (calls : List (Bool × ℚ)) (ran : List Bool) : Prop :=
  ran.length = calls.length ∧
  ∀ (i : Nat) (force : Bool) (now : ℚ), calls[i]? = some (force, now) → (ran[i]? = some true ↔
    force = true ∨ (period < now - start ∧
      ∀ (j : Nat) (f : Bool) (earlier : ℚ), j < i → calls[j]? = some (f, earlier) → ran[j]? = some true → period < now - earlier))

/-- Specification: the clock does not go backwards. -/
def ClockFrom (start : ℚ) (calls : List (Bool × ℚ)) : Prop :=
  (∀ c ∈ calls, start ≤ c.2) ∧ calls.Pairwise fun a b => a.2 ≤ b.2

/-- Specification: the clock readings of the executed calls. -/
def executedTimes (calls : List (Bool × ℚ)) (ran : List Bool) : List ℚ :=
  ((calls.zip ran).filter Prod.snd).map fun e => e.1.2

/-! ## C54: proofs -/

theorem RateLimited.cons_skip {period start now : ℚ} {calls : List (Bool × ℚ)} {ran : List Bool}
    (hs : ¬period < now - start) (h : RateLimited period start calls ran) :
    RateLimited period start ((false, now) :: calls) (false :: ran) := by
  refine ⟨by simp [h.1], fun i force t hi => ?_⟩
  cases i with
  | zero =>
    simp only [List.getElem?_cons_zero, Option.some.injEq, Prod.mk.injEq] at hi
    obtain ⟨rfl, rfl⟩ := hi
    simp [hs]
  | succ i =>
    simp only [List.getElem?_cons_succ] at hi ⊢
    rw [h.2 i force t hi]
    refine or_congr Iff.rfl (and_congr Iff.rfl ⟨fun hx j f e hj hc hr => ?_, fun hx j f e hj hc hr => ?_⟩)
    · cases j with
      | zero => simp at hr
      | succ j => exact hx j f e (by omega) (by simpa using hc) (by simpa using hr)
    · exact hx (j + 1) f e (by omega) (by simpa using hc) (by simpa using hr)

theorem RateLimited.cons_run {period start now : ℚ} {force : Bool} {calls : List (Bool × ℚ)} {ran : List Bool}
    (hf : force = true ∨ period < now - start) (hn : start ≤ now) (h : RateLimited period now calls ran) :
    RateLimited period start ((force, now) :: calls) (true :: ran) := by
  refine ⟨by simp [h.1], fun i force' t hi => ?_⟩
  cases i with
  | zero =>
    simp only [List.getElem?_cons_zero, Option.some.injEq, Prod.mk.injEq] at hi
    obtain ⟨rfl, rfl⟩ := hi
    simp only [List.getElem?_cons_zero, true_iff]
    exact hf.imp id fun hx => ⟨hx, fun j _ _ hj => absurd hj (Nat.not_lt_zero j)⟩
  | succ i =>
    simp only [List.getElem?_cons_succ] at hi ⊢
    rw [h.2 i force' t hi]
    refine or_congr Iff.rfl ⟨fun ⟨h1, h2⟩ => ⟨by linarith, fun j f e hj hc hr => ?_⟩, fun ⟨h1, h2⟩ => ⟨?_, fun j f e hj hc hr => ?_⟩⟩
    · cases j with
      | zero =>
        simp only [List.getElem?_cons_zero, Option.some.injEq, Prod.mk.injEq] at hc
        rw [← hc.2]; exact h1
      | succ j => exact h2 j f e (by omega) (by simpa using hc) (by simpa using hr)
    · exact h2 0 force now (by omega) rfl rfl
    · exact h2 (j + 1) f e (by omega) (by simpa using hc) (by simpa using hr)

/-! ## C54: properties -/

/-- **C54** For every sequence of calls at non-decreasing clock readings, a forced call always executes and an unforced one
executes exactly if more than the period elapsed since every earlier execution (and since the operation's initial stamp);
the map is changed by the executed calls only, each applying the operation's effect once. -/
theorem C54_rate_limited {M : Type} (work : ℚ → M → M) (op : PeriodicOperation) (m : M) (calls : List (Bool × ℚ))
    (hc : ClockFrom op.lastRun calls) :
    ∃ ran : List Bool, RateLimited op.onceEvery op.lastRun calls ran ∧
      (PeriodicOperation.runAll work calls op m).2 = (executedTimes calls ran).foldl (fun m now => work now m) m := by
  induction calls generalizing op m with
  | nil => exact ⟨[], ⟨rfl, fun i f t h => by simp at h⟩, rfl⟩
  | cons c calls ih =>
    obtain ⟨force, now⟩ := c
    obtain ⟨h1, h2⟩ := hc
    rw [List.pairwise_cons] at h2
    have hn : op.lastRun ≤ now := h1 _ List.mem_cons_self
    by_cases hr : force = true ∨ op.onceEvery < now - op.lastRun
    · obtain ⟨ran, h3, h4⟩ := ih { op with lastRun := now } (work now m) ⟨fun c hc => h2.1 c hc, h2.2⟩
      refine ⟨true :: ran, h3.cons_run hr hn, ?_⟩
      have : op.run work force now m = ({ op with lastRun := now }, work now m) := by
        unfold PeriodicOperation.run PeriodicOperation.shouldRun
        rw [if_pos (by simpa using hr)]
      simp only [PeriodicOperation.runAll, this]
      rw [h4]
      simp [executedTimes]
    · have hf : force = false := by
        cases force with
        | false => rfl
        | true => exact absurd (Or.inl rfl) hr
      subst hf
      obtain ⟨ran, h3, h4⟩ := ih op m ⟨fun c hc => h1 c (List.mem_cons_of_mem _ hc), h2.2⟩
      have hs : ¬op.onceEvery < now - op.lastRun := fun h => hr (Or.inr h)
      refine ⟨false :: ran, h3.cons_skip hs, ?_⟩
      have : op.run work false now m = (op, m) := by
        unfold PeriodicOperation.run PeriodicOperation.shouldRun
        rw [if_neg (by simpa using hs)]
      simp only [PeriodicOperation.runAll, this]
      rw [h4]
      simp [executedTimes]

/-- **C54** The specification determines which calls execute. -/
theorem C54_unique (period start : ℚ) (calls : List (Bool × ℚ)) (ran ran' : List Bool)
    (h : RateLimited period start calls ran) (h' : RateLimited period start calls ran') : ran = ran' := by
  have key : ∀ i : Nat, ∀ j < i, ran[j]? = ran'[j]? := by
    intro i
    induction i with
    | zero => intro j hj; omega
    | succ i ih =>
      intro j hj
      by_cases hji : j < i
      · exact ih j hji
      · have : j = i := by omega
        subst this
        by_cases hlt : j < calls.length
        · have e1 := h.2 j (calls[j]).1 (calls[j]).2 (List.getElem?_eq_getElem hlt)
          have e2 := h'.2 j (calls[j]).1 (calls[j]).2 (List.getElem?_eq_getElem hlt)
          have e3 : ran[j]? = some true ↔ ran'[j]? = some true := by
            rw [e1, e2]
            refine or_congr Iff.rfl (and_congr Iff.rfl ⟨fun hx k f e hk hc hr => ?_, fun hx k f e hk hc hr => ?_⟩)
            · exact hx k f e hk hc (by rw [ih k hk]; exact hr)
            · exact hx k f e hk hc (by rw [← ih k hk]; exact hr)
          have l1 : j < ran.length := by rw [h.1]; exact hlt
          have l2 : j < ran'.length := by rw [h'.1]; exact hlt
          rw [List.getElem?_eq_getElem l1, List.getElem?_eq_getElem l2] at e3 ⊢
          simp only [Option.some.injEq] at e3 ⊢
          exact Bool.eq_iff_iff.2 e3
        · rw [List.getElem?_eq_none (by rw [h.1]; omega), List.getElem?_eq_none (by rw [h'.1]; omega)]
  exact List.ext_getElem? fun i => key (i + 1) i (by omega)

/-- **C54** Between two executed calls of which the later is unforced more than the period elapses. -/
theorem C54_spacing (period start : ℚ) (calls : List (Bool × ℚ)) (ran : List Bool) (h : RateLimited period start calls ran)
    (i j : Nat) (fi : Bool) (ti tj : ℚ) (hij : i < j) (hi : calls[i]? = some (fi, ti)) (hj : calls[j]? = some (false, tj))
    (ri : ran[i]? = some true) (rj : ran[j]? = some true) : period < tj - ti := by
  rcases (h.2 j false tj hj).1 rj with h1 | ⟨_, h1⟩
  · cases h1
  · exact h1 i fi ti hij hi ri

/-- **C54** Without forced calls, `k + 1` executions take more than `k` periods (counted from the initial stamp, `k + 1`):
the number of executions up to time `T` is less than `(T - start) / period`. -/
theorem C54_execution_count (period start T : ℚ) (hp : 0 < period) (calls : List (Bool × ℚ)) (ran : List Bool)
    (hc : ClockFrom start calls) (hT : ∀ c ∈ calls, c.2 ≤ T) (hu : ∀ c ∈ calls, c.1 = false)
    (h : RateLimited period start calls ran) (hne : executedTimes calls ran ≠ []) :
    (executedTimes calls ran).length * period < T - start := by
  induction calls generalizing start ran with
  | nil => simp [executedTimes] at hne
  | cons c calls ih =>
    obtain ⟨force, now⟩ := c
    have hf : force = false := hu _ List.mem_cons_self
    subst hf
    cases ran with
    | nil => simp [executedTimes] at hne
    | cons r ran =>
      obtain ⟨hc1, hc2⟩ := hc
      rw [List.pairwise_cons] at hc2
      have h0 := h.2 0 false now rfl
      cases r with
      | false =>
        have hs : executedTimes ((false, now) :: calls) (false :: ran) = executedTimes calls ran := by simp [executedTimes]
        rw [hs] at hne ⊢
        refine ih start ran ⟨fun c hc => hc1 c (List.mem_cons_of_mem _ hc), hc2.2⟩
          (fun c hc => hT c (List.mem_cons_of_mem _ hc)) (fun c hc => hu c (List.mem_cons_of_mem _ hc)) ?_ hne
        refine ⟨by simpa using h.1, fun i f t hi => ?_⟩
        have := h.2 (i + 1) f t (by simpa using hi)
        simp only [List.getElem?_cons_succ] at this
        rw [this]
        refine or_congr Iff.rfl (and_congr Iff.rfl ⟨fun hx j g e hj hc hr => ?_, fun hx j g e hj hc hr => ?_⟩)
        · exact hx (j + 1) g e (by omega) (by simpa using hc) (by simpa using hr)
        · cases j with
          | zero => simp at hr
          | succ j => exact hx j g e (by omega) (by simpa using hc) (by simpa using hr)
      | true =>
        have hs : executedTimes ((false, now) :: calls) (true :: ran) = now :: executedTimes calls ran := by simp [executedTimes]
        have hlt : period < now - start := by
          rcases h0.1 rfl with h1 | h1
          · cases h1
          · exact h1.1
        rw [hs, List.length_cons]
        push_cast
        by_cases hemp : executedTimes calls ran = []
        · rw [hemp]
          have := hT _ List.mem_cons_self
          simp only [List.length_nil, Nat.cast_zero]
          dsimp only at this
          linarith
        · have := ih now ran ⟨fun c hc => hc2.1 c hc, hc2.2⟩
            (fun c hc => hT c (List.mem_cons_of_mem _ hc)) (fun c hc => hu c (List.mem_cons_of_mem _ hc)) ?_ hemp
          · linarith
          · refine ⟨by simpa using h.1, fun i f t hi => ?_⟩
            have := h.2 (i + 1) f t (by simpa using hi)
            simp only [List.getElem?_cons_succ] at this
            rw [this]
            have hm : (f, t) ∈ calls := List.mem_of_getElem? hi
            have hnt : start ≤ now := hc1 _ List.mem_cons_self
            refine or_congr Iff.rfl ⟨fun ⟨_, hx⟩ => ⟨hx 0 false now (by omega) rfl rfl, fun j g e hj hc hr => ?_⟩,
              fun ⟨h1, hx⟩ => ⟨by linarith, fun j g e hj hc hr => ?_⟩⟩
            · exact hx (j + 1) g e (by omega) (by simpa using hc) (by simpa using hr)
            · cases j with
              | zero =>
                simp only [List.getElem?_cons_zero, Option.some.injEq, Prod.mk.injEq] at hc
                rw [← hc.2]; exact h1
              | succ j => exact hx j g e (by omega) (by simpa using hc) (by simpa using hr)

/-- Six calls with a period of 10 seconds: one is too early, one is exactly a period after the last execution (not more), one
is forced. The map is a log of the execution times. -/
example : (PeriodicOperation.runAll (fun now (m : List ℚ) => m ++ [now])
    [(false, 12), (false, 15), (false, 22), (false, 23), (true, 24), (false, 33)] (.create 10) []).2 = [12, 23, 24] ∧
    ClockFrom 0 [(false, 12), (false, 15), (false, 22), (false, 23), (true, 24), (false, 33)] := by
  constructor
  · decide +kernel
  · constructor <;> decide +kernel

/-! ## C54: stopwatch -/

/-- The calls of a stopwatch's user, with the clock reading. -/
inductive StopwatchCall where
  | start (now : ℚ)
  | stop (now : ℚ)
  | reset

/-- The call on the modelled stopwatch. -/
def StopwatchCall.run (s : Stopwatch) : StopwatchCall → Stopwatch
  | .start now => s.start now
  | .stop now => s.stop now
  | .reset => .create

/-- Specification: the durations of the completed episodes of a history, oldest first, given the time at which the running
episode (if any) was started. An episode lasts from the first `start` to the next `stop`; a `reset` forgets everything. -/
def episodes : Option ℚ → List ℚ → List StopwatchCall → Option ℚ × List ℚ
  | running, done, [] => (running, done)
  | none, done, .start t :: h => episodes (some t) done h
  | some t, done, .start _ :: h => episodes (some t) done h
  | none, done, .stop _ :: h => episodes none done h
  | some t, done, .stop now :: h => episodes none (done ++ [now - t]) h
  | _, _, .reset :: h => episodes none [] h

/-- The stopwatch shows these episodes. -/
def Stopwatch.Shows (s : Stopwatch) (running : Option ℚ) (done : List ℚ) : Prop :=
  s.running = running.isSome ∧ (∀ t, running = some t → s.episodeStart = t) ∧ s.total = done.sum ∧
    s.lastEpisode = done.getLastD 0

theorem Stopwatch.Shows.run {s : Stopwatch} {running : Option ℚ} {done : List ℚ} (h : s.Shows running done)
    (calls : List StopwatchCall) :
    (calls.foldl StopwatchCall.run s).Shows (episodes running done calls).1 (episodes running done calls).2 := by
  induction calls generalizing s running done with
  | nil => simpa [episodes] using h
  | cons c calls ih =>
    obtain ⟨h1, h2, h3, h4⟩ := h
    cases c with
    | start now =>
      cases running with
      | none =>
        simp only [episodes, List.foldl_cons]
        refine ih ⟨?_, ?_, ?_, ?_⟩ <;> simp_all [StopwatchCall.run, Stopwatch.start]
      | some t =>
        simp only [episodes, List.foldl_cons]
        refine ih ⟨?_, ?_, ?_, ?_⟩ <;> simp_all [StopwatchCall.run, Stopwatch.start]
    | stop now =>
      cases running with
      | none =>
        simp only [episodes, List.foldl_cons]
        refine ih ⟨?_, ?_, ?_, ?_⟩ <;> simp_all [StopwatchCall.run, Stopwatch.stop]
      | some t =>
        simp only [episodes, List.foldl_cons]
        refine ih ⟨?_, ?_, ?_, ?_⟩ <;> simp_all [StopwatchCall.run, Stopwatch.stop]
    | reset =>
      simp only [episodes, List.foldl_cons]
      exact ih ⟨rfl, (fun t h => by cases h), rfl, rfl⟩

/-- **C54** After any sequence of calls, the stopwatch's total is the sum of the completed episodes since the last reset, its
last episode is the latest of them (zero if there is none), and it runs exactly if an episode was started and not stopped. -/
theorem C54_stopwatch (calls : List StopwatchCall) :
    let s := calls.foldl StopwatchCall.run .create
    let e := episodes none [] calls
    s.total = e.2.sum ∧ s.lastEpisode = e.2.getLastD 0 ∧ s.running = e.1.isSome := by
  have h : Stopwatch.create.Shows none [] := ⟨rfl, (fun t h => by cases h), rfl, rfl⟩
  have := Stopwatch.Shows.run h calls
  exact ⟨this.2.2.1, this.2.2.2, this.1⟩

/-- A `start` while running and a `stop` while stopped have no effect. -/
example : let s := [StopwatchCall.start 1, .start 2, .stop 4, .stop 9, .start 10, .stop 11, .start 20].foldl StopwatchCall.run .create
    s.total = 4 ∧ s.lastEpisode = 1 ∧ s.running = true := by
  refine ⟨?_, ?_, ?_⟩ <;> decide +kernel

/-! ## C64: cropping -/

/-- Specification: the point lies in the closed cube of block `k`, whose side is `2 ^ H` cells of width `w`. -/
def PointInBlock (w : ℚ) (H : Nat) (k : Index 3) (p : Point 3) : Prop :=
  ∀ i, k i * (w * 2 ^ H) ≤ p i ∧ p i ≤ (k i + 1) * (w * 2 ^ H)

/-- Specification: some point of the block of cell `j` lies within `distance` of `center`. -/
def BlockWithin (w : ℚ) (H : Nat) (distance : ℚ) (center : Point 3) (j : Index 3) : Prop :=
  ∃ k p, InBlock H k j ∧ PointInBlock w H k p ∧ sqDist center p ≤ distance ^ 2

theorem cropIndicator_iff (H : Nat) (hH : H ≤ 20) (w distance : ℚ) (hw : 0 < w) (center : Point 3) (k : Index 3) :
    cropIndicator H w distance center k = false ↔ ∃ p, PointInBlock w H k p ∧ sqDist center p ≤ distance ^ 2 := by
  have e : (exp2 H : Nat) = 2 ^ H := by
    unfold exp2
    rw [Nat.shiftLeft_eq, Nat.one_mul]
  have hcell : heightToCellWidth w H = w * 2 ^ H := by
    unfold heightToCellWidth; rw [e]; push_cast; rfl
  have hpos : (0 : ℚ) < w * 2 ^ H := by positivity
  have hproper : (nodeIndexToAabb (⟨H, k⟩ : NdtreeIndex 3) w).Proper := by
    intro i
    show (k i : ℚ) * heightToCellWidth w (H : Int).toNat ≤ ((k i : ℚ) + 1) * heightToCellWidth w (H : Int).toNat
    rw [Int.toNat_natCast, hcell]
    nlinarith
  obtain ⟨h1, h2, h3⟩ := C47_closest _ hproper center
  have hin : ∀ p, InAabb (nodeIndexToAabb (⟨H, k⟩ : NdtreeIndex 3) w).min (nodeIndexToAabb (⟨H, k⟩ : NdtreeIndex 3) w).max p
      ↔ PointInBlock w H k p := by
    intro p
    unfold InAabb PointInBlock
    refine forall_congr' fun i => ?_
    show (k i : ℚ) * heightToCellWidth w (H : Int).toNat ≤ p i ∧ p i ≤ ((k i : ℚ) + 1) * heightToCellWidth w (H : Int).toNat ↔ _
    rw [Int.toNat_natCast, hcell]
  unfold cropIndicator
  rw [decide_eq_false_iff_not, not_lt, h3]
  constructor
  · intro h; exact ⟨_, (hin _).1 h1, h⟩
  · rintro ⟨p, hp, hd⟩; exact le_trans (h2 p ((hin p).2 hp)) hd

theorem HashedWaveletOctree.eraseBlockIf_get {m : HashedWaveletOctree} (h : m.Inv) (p : Index 3 → Bool) (j : Index 3) :
    (m.eraseBlockIf p).getCellValue j = (if p (indexToBlockIndex m.config.treeHeight j) then 0 else m.getCellValue j) ∧
    ((m.eraseBlockIf p).Allocated j ↔ m.Allocated j ∧ p (indexToBlockIndex m.config.treeHeight j) = false) := by
  have hb : (m.eraseBlockIf p).blocks.getBlock (indexToBlockIndex m.config.treeHeight j)
      = (m.blocks.getBlock (indexToBlockIndex m.config.treeHeight j)).bind fun b =>
          if p (indexToBlockIndex m.config.treeHeight j) then none else some b :=
    SpatialHash.getBlock_eraseBlockIf m.blocks h.nodup _ fun k b => (b, p k)
  constructor
  · rw [getCellValue_eq (h.eraseBlockIf p), getCellValue_eq h]
    have hc : (m.eraseBlockIf p).config = m.config := rfl
    rw [hc, hb]
    cases m.blocks.getBlock (indexToBlockIndex m.config.treeHeight j) <;>
      cases p (indexToBlockIndex m.config.treeHeight j) <;> rfl
  · rw [allocated_iff, allocated_iff]
    have hc : (m.eraseBlockIf p).config = m.config := rfl
    rw [hc, hb]
    cases m.blocks.getBlock (indexToBlockIndex m.config.treeHeight j) <;>
      cases p (indexToBlockIndex m.config.treeHeight j) <;> simp

/-- **C64** When a crop operation executes (forced, or more than its period after the last run) and the body's position is
known, then a cell keeps its value, and stays allocated if it was, exactly if some point of its block is within the
configured distance of the body; all other cells read as unknown and their blocks are gone. -/
theorem C64_crop (op : PeriodicOperation) (distance : ℚ) (force : Bool) (now : ℚ) (center : Point 3)
    (m : HashedWaveletOctree) (hm : m.Reachable) (hrun : force = true ∨ op.onceEvery < now - op.lastRun) (j : Index 3) :
    let r := cropRun op distance force now (some center) m
    let near := BlockWithin m.config.minCellWidth m.config.treeHeight distance center j
    r.1.lastRun = now ∧
    (near → r.2.getCellValue j = m.getCellValue j ∧ (r.2.Allocated j ↔ m.Allocated j)) ∧
    (¬near → r.2.getCellValue j = 0 ∧ ¬r.2.Allocated j) := by
  have hinv := hm.inv
  have hw : 0 < m.config.minCellWidth := by
    obtain ⟨config, hc, hH, ops, rfl⟩ := hm
    have : ∀ (ops : List HashedWaveletOp) (m : HashedWaveletOctree), (ops.foldl HashedWaveletOp.run m).config = m.config := by
      intro ops
      induction ops with
      | nil => intro m; rfl
      | cons o ops ih => intro m; rw [List.foldl_cons, ih, HashedWaveletOctree.run_config]
    rw [this]
    simp only [HashedWaveletOctreeConfig.isValid, Bool.and_eq_true, decide_eq_true_eq] at hc
    exact hc.1.1
  have hgo : ¬((!force && !op.shouldRun now) = true) := by
    unfold PeriodicOperation.shouldRun
    rcases hrun with rfl | h
    · simp
    · simp [h]
  have hnear : BlockWithin m.config.minCellWidth m.config.treeHeight distance center j ↔
      cropIndicator m.config.treeHeight m.config.minCellWidth distance center (indexToBlockIndex m.config.treeHeight j) = false := by
    rw [cropIndicator_iff _ hinv.le _ _ hw]
    constructor
    · rintro ⟨k, p, h1, h2, h3⟩
      rw [inBlock_iff] at h1
      rw [h1]; exact ⟨p, h2, h3⟩
    · rintro ⟨p, h2, h3⟩; exact ⟨_, p, (inBlock_iff _ _).2 rfl, h2, h3⟩
  dsimp only
  rw [hnear]
  unfold cropRun
  rw [if_neg hgo]
  by_cases he : m.blocks.isEmpty = true
  · rw [if_pos he]
    have hn : ∀ k, m.blocks.getBlock k = none := by
      intro k; rw [List.isEmpty_iff.1 he]; rfl
    refine ⟨rfl, fun _ => ⟨rfl, Iff.rfl⟩, fun _ => ⟨?_, ?_⟩⟩
    · rw [HashedWaveletOctree.getCellValue_eq hinv, hn]
    · rw [HashedWaveletOctree.allocated_iff, hn]; simp
  · rw [if_neg he]
    obtain ⟨h1, h2⟩ := HashedWaveletOctree.eraseBlockIf_get hinv
      (cropIndicator m.config.treeHeight m.config.minCellWidth distance center) j
    refine ⟨rfl, fun hx => ⟨?_, ?_⟩, fun hx => ⟨?_, ?_⟩⟩
    · rw [h1, hx]; rfl
    · rw [h2]; simp [hx]
    · rw [h1, if_pos (by simpa using hx)]
    · rw [h2]; exact fun h => hx h.2

/-- **C64** No cell within reach is lost: if a point of the cell itself is within the distance, the cell keeps its value. -/
theorem C64_near_cells_kept (op : PeriodicOperation) (distance : ℚ) (force : Bool) (now : ℚ) (lookup : Option (Point 3))
    (m : HashedWaveletOctree) (hm : m.Reachable) (j : Index 3) (p : Point 3)
    (hp : ∀ i, j i * m.config.minCellWidth ≤ p i ∧ p i ≤ (j i + 1) * m.config.minCellWidth)
    (hd : ∀ c, lookup = some c → sqDist c p ≤ distance ^ 2) :
    (cropRun op distance force now lookup m).2.getCellValue j = m.getCellValue j := by
  by_cases hrun : force = true ∨ op.onceEvery < now - op.lastRun
  · cases lookup with
    | none =>
      unfold cropRun
      dsimp only
      split
      · rfl
      · split <;> rfl
    | some c =>
      refine ((C64_crop op distance force now c m hm hrun j).2.1 ?_).1
      refine ⟨_, p, (inBlock_iff _ _).2 rfl, fun i => ?_, hd c rfl⟩
      have hinv := hm.inv
      have hw : 0 ≤ m.config.minCellWidth := by
        have := (hp i).1.trans (hp i).2
        nlinarith
      have e : indexToBlockIndex m.config.treeHeight j i = j i / 2 ^ m.config.treeHeight := by
        unfold indexToBlockIndex; exact divExp2Floor_eq _ _
      rw [e]
      have h1 : j i / 2 ^ m.config.treeHeight * 2 ^ m.config.treeHeight ≤ j i :=
        Int.ediv_mul_le _ (by positivity)
      have h2 : j i + 1 ≤ (j i / 2 ^ m.config.treeHeight + 1) * 2 ^ m.config.treeHeight := by
        have := Int.lt_ediv_add_one_mul_self (j i) (b := 2 ^ m.config.treeHeight) (by positivity)
        omega
      have h1' : ((j i / 2 ^ m.config.treeHeight : Int) : ℚ) * 2 ^ m.config.treeHeight ≤ j i := by exact_mod_cast h1
      have h2' : (j i : ℚ) + 1 ≤ (((j i / 2 ^ m.config.treeHeight : Int) : ℚ) + 1) * 2 ^ m.config.treeHeight := by exact_mod_cast h2
      constructor
      · calc _ = ((j i / 2 ^ m.config.treeHeight : Int) : ℚ) * 2 ^ m.config.treeHeight * m.config.minCellWidth := by ring
          _ ≤ j i * m.config.minCellWidth := mul_le_mul_of_nonneg_right h1' hw
          _ ≤ p i := (hp i).1
      · calc p i ≤ (j i + 1) * m.config.minCellWidth := (hp i).2
          _ ≤ (((j i / 2 ^ m.config.treeHeight : Int) : ℚ) + 1) * 2 ^ m.config.treeHeight * m.config.minCellWidth :=
              mul_le_mul_of_nonneg_right h2' hw
          _ = _ := by ring
  · unfold cropRun
    have : (!force && !op.shouldRun now) = true := by
      unfold PeriodicOperation.shouldRun
      cases force
      · simpa using fun h => hrun (Or.inr h)
      · exact absurd (Or.inl rfl) hrun
    rw [if_pos this]

/-- **C64** A call that is neither forced nor due changes nothing. A call that executes without knowing the body's position
leaves the map as it is, but counts as a run: the next unforced attempt waits for a whole period. -/
theorem C64_crop_skipped (op : PeriodicOperation) (distance : ℚ) (force : Bool) (now : ℚ) (m : HashedWaveletOctree) :
    (¬(force = true ∨ op.onceEvery < now - op.lastRun) → ∀ lookup, cropRun op distance force now lookup m = (op, m)) ∧
    ((force = true ∨ op.onceEvery < now - op.lastRun) →
      cropRun op distance force now none m = ({ op with lastRun := now }, m)) := by
  unfold cropRun PeriodicOperation.shouldRun
  constructor
  · intro h lookup
    rw [if_pos]
    cases force
    · simpa using fun h' => h (Or.inr h')
    · exact absurd (Or.inl rfl) h
  · intro h
    rw [if_neg]
    · dsimp only; split <;> rfl
    · rcases h with rfl | h
      · simp
      · simp [h]

/-- **C64** Cropping a chunked map has the same effect as cropping the plain one. -/
theorem C64_crop_chunked (config : HashedWaveletOctreeConfig) (hc : config.isValidChunked = true) (ops : List HashedWaveletOp)
    (op : PeriodicOperation) (distance : ℚ) (force : Bool) (now : ℚ) (lookup : Option (Point 3)) :
    ∃ c, runChunkedMap config ops = some c ∧
      (cropRunChunked op distance force now lookup c).1 = (cropRun op distance force now lookup (runPlainMap config ops)).1 ∧
      ∀ j, (cropRunChunked op distance force now lookup c).2.getCellValue j
        = (cropRun op distance force now lookup (runPlainMap config ops)).2.getCellValue j := by
  obtain ⟨c, h1, h2, -⟩ := HashedChunkedWaveletOctree.run_rel hc ops
  refine ⟨c, h1, ?_⟩
  have he : c.blocks.isEmpty = (runPlainMap config ops).blocks.isEmpty := by
    have := h2.blocks.length_eq
    rw [Bool.eq_iff_iff, List.isEmpty_iff_length_eq_zero, List.isEmpty_iff_length_eq_zero, this]
  have hrel : ∀ p, (c.eraseBlockIf p).Rel ((runPlainMap config ops).eraseBlockIf p) := fun p =>
    ⟨h2.config, HashedChunkedWaveletOctree.erase_rel h2.blocks p⟩
  unfold cropRunChunked cropRun
  by_cases h : (!force && !op.shouldRun now) = true
  · rw [if_pos h, if_pos h]; exact ⟨rfl, fun j => h2.get j⟩
  · rw [if_neg h, if_neg h]
    dsimp only
    rw [he]
    by_cases hemp : (runPlainMap config ops).blocks.isEmpty = true
    · rw [if_pos hemp, if_pos hemp]; exact ⟨rfl, fun j => h2.get j⟩
    · rw [if_neg hemp, if_neg hemp]
      cases lookup with
      | none => exact ⟨rfl, fun j => h2.get j⟩
      | some t => rw [h2.config]; exact ⟨rfl, fun j => (hrel _).get j⟩

/-- A map with two blocks of 4 x 4 x 4 unit cells, one at the origin and one from 20 to 24 along x: cropping at distance 10
around (1, 2, 3) removes the second only; at distance 19 it removes none. -/
example :
    let m := [HashedWaveletOp.write (.add (fun _ => 1) 2 0), .write (.add ![21, 0, 0] 3 0)].foldl HashedWaveletOp.run
      (.create ⟨1, -2, 4, 2, 5⟩)
    let crop := fun d => (cropRun (.create 10) d false 11 (some ![1, 2, 3]) m).2
    m.Reachable ∧ (crop 10).getCellValue (fun _ => 1) = 2 ∧ (crop 10).getCellValue ![21, 0, 0] = 0 ∧
    (crop 19).getCellValue ![21, 0, 0] = 3 := by
  refine ⟨⟨⟨1, -2, 4, 2, 5⟩, by decide +kernel, by decide, _, rfl⟩, ?_, ?_, ?_⟩ <;> decide +kernel

end Wavemap
