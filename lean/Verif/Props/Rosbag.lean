import Verif.Model.Rosbag
import Verif.Props.InputQueue
/-!
# C78: processing recorded measurements
-/
namespace Wavemap
open RosbagProcessor

variable {D : Type}

/-! ## Specification -/

/-- Specification: the messages that the input with this number gets, in order. -/
def deliveredTo (input : Nat) (events : List (BagEvent D)) : List (BagMessage D) :=
  events.filterMap fun e => match e with
    | .deliver i msg => if i = input then some msg else none
    | _ => none

/-- Specification: the messages that are published again on a topic, in order. -/
def republishedOn (topic : String) (events : List (BagEvent D)) : List (BagMessage D) :=
  events.filterMap fun e => match e with
    | .republish t msg => if t = topic then some msg else none
    | _ => none

/-- Specification: the times that are published on the clock, in order. -/
def clockTimes (events : List (BagEvent D)) : List Nat :=
  events.filterMap fun e => match e with
    | .clock t => some t
    | _ => none

/-- Specification: no input before the `i`-th that takes messages has this topic. -/
def FirstOnTopic (livoxAvailable : Bool) (inputs : List BagInput) (i : Nat) (topic : String) : Prop :=
  ∀ (j : Nat) (y : BagInput), j < i → inputs[j]? = some y → y.messageType livoxAvailable ≠ none → y.topic ≠ topic

/-! ## The callbacks and republishers -/

theorem lookup_append_rosbag {V : Type} (l l' : List (String × V)) (k : String) : (l ++ l').lookup k = (l.lookup k).or (l'.lookup k) := by
  induction l with
  | nil => simp
  | cons e es ih =>
    obtain ⟨a, b⟩ := e
    simp only [List.cons_append, List.lookup]
    split <;> simp [ih]

theorem lookup_tryEmplace {V : Type} (l : List (String × V)) (key k : String) (v : V) :
    (tryEmplace l key v).lookup k = (l.lookup k).or (if k = key then some v else none) := by
  unfold tryEmplace
  cases h : l.lookup key with
  | some u =>
    dsimp only
    by_cases e : k = key
    · subst e; rw [h]; rfl
    · rw [if_neg e, Option.or_none]
  | none =>
    dsimp only
    rw [lookup_append_rosbag]
    congr 1
    by_cases e : k = key
    · subst e; simp [List.lookup]
    · rw [if_neg e]
      simp only [List.lookup, beq_eq_false_iff_ne.2 e]

theorem lookup_addInputs (lv : Bool) (t : String) (is : List BagInput) (k : Nat) (p : RosbagProcessor) :
    (addInputs lv k is p).callbacks.lookup t = (p.callbacks.lookup t).or ((addInputs lv k is {}).callbacks.lookup t) := by
  induction is generalizing k p with
  | nil => simp [addInputs]
  | cons i is ih =>
    unfold addInputs
    cases i.messageType lv with
    | none => exact ih (k + 1) p
    | some ty =>
      dsimp only
      rw [ih (k + 1) (p.addCallback _ _), ih (k + 1) (addCallback {} _ _)]
      simp only [addCallback, lookup_tryEmplace]
      rw [Option.or_assoc]
      congr 1

/-- The callback for a topic is the one of the first input with the topic. -/
theorem lookup_callbacks (lv : Bool) (t : String) (is : List BagInput) (k : Nat) (cb : BagCallback) :
    (addInputs lv k is {}).callbacks.lookup t = some cb ↔
      ∃ (i : Nat) (x : BagInput), is[i]? = some x ∧ cb.input = k + i ∧ x.messageType lv = some cb.type ∧ x.topic = t ∧ FirstOnTopic lv is i t := by
  induction is generalizing k with
  | nil => simp [addInputs]
  | cons y is ih =>
    unfold addInputs
    have hrec : (∃ (i : Nat) (x : BagInput), is[i]? = some x ∧ cb.input = k + 1 + i ∧ x.messageType lv = some cb.type ∧ x.topic = t ∧ FirstOnTopic lv is i t) ∧
        (y.messageType lv ≠ none → y.topic ≠ t) ↔
        ∃ (i : Nat) (x : BagInput), (y :: is)[i + 1]? = some x ∧ cb.input = k + (i + 1) ∧ x.messageType lv = some cb.type ∧ x.topic = t ∧
          FirstOnTopic lv (y :: is) (i + 1) t := by
      constructor
      · rintro ⟨⟨i, x, h1, h2, h3, h4, h5⟩, h6⟩
        refine ⟨i, x, by simpa using h1, by omega, h3, h4, fun j z hj hz => ?_⟩
        cases j with
        | zero => simp only [List.getElem?_cons_zero, Option.some.injEq] at hz; subst hz; exact h6
        | succ j => exact h5 j z (by omega) (by simpa using hz)
      · rintro ⟨i, x, h1, h2, h3, h4, h5⟩
        exact ⟨⟨i, x, by simpa using h1, by omega, h3, h4, fun j z hj hz => h5 (j + 1) z (by omega) (by simpa using hz)⟩, h5 0 y (by omega) rfl⟩
    cases hm : y.messageType lv with
    | none =>
      dsimp only
      rw [ih (k + 1)]
      constructor
      · intro h
        obtain ⟨i, x, h⟩ := hrec.1 ⟨h, fun hn => absurd hm hn⟩
        exact ⟨i + 1, x, h⟩
      · rintro ⟨i, x, h⟩
        cases i with
        | zero =>
          simp only [List.getElem?_cons_zero, Option.some.injEq] at h
          rw [← h.1, hm] at h
          exact absurd h.2.2.1 (by simp)
        | succ i => exact (hrec.2 ⟨i, x, h⟩).1
    | some ty =>
      dsimp only
      rw [lookup_addInputs]
      have e : (addCallback {} y.topic ⟨k, ty⟩).callbacks.lookup t = if t = y.topic then some ⟨k, ty⟩ else none := by
        simp only [addCallback, lookup_tryEmplace]
        simp
      rw [e]
      by_cases ht : t = y.topic
      · rw [if_pos ht]
        simp only [Option.some_or, Option.some.injEq]
        constructor
        · rintro rfl
          exact ⟨0, y, rfl, rfl, hm, ht.symm, fun j _ hj => absurd hj (by omega)⟩
        · rintro ⟨i, x, h1, h2, h3, h4, h5⟩
          cases i with
          | zero =>
            simp only [List.getElem?_cons_zero, Option.some.injEq] at h1
            subst h1
            rw [hm] at h3
            obtain ⟨i, ty'⟩ := cb
            simp only [Option.some.injEq] at h2 h3
            rw [h2, h3]
            rfl
          | succ i => exact absurd ht.symm (h5 0 y (by omega) rfl (by rw [hm]; simp))
      · rw [if_neg ht, Option.none_or, ih (k + 1)]
        constructor
        · intro h
          obtain ⟨i, x, h⟩ := hrec.1 ⟨h, fun _ e => ht e.symm⟩
          exact ⟨i + 1, x, h⟩
        · rintro ⟨i, x, h⟩
          cases i with
          | zero =>
            simp only [List.getElem?_cons_zero, Option.some.injEq] at h
            rw [h.1] at ht
            exact absurd h.2.2.2.1.symm ht
          | succ i => exact (hrec.2 ⟨i, x, h⟩).1

theorem setup_callbacks (lv : Bool) (inputs : List BagInput) (conns : List String) :
    (setup lv inputs conns).callbacks = (addInputs lv 0 inputs {}).callbacks := by
  unfold setup; dsimp only; split <;> rfl

theorem addInputs_rest (lv : Bool) (is : List BagInput) (k : Nat) (p : RosbagProcessor) :
    (addInputs lv k is p).republishers = p.republishers ∧ (addInputs lv k is p).simulatedClock = p.simulatedClock := by
  induction is generalizing k p with
  | nil => exact ⟨rfl, rfl⟩
  | cons i is ih =>
    unfold addInputs
    cases i.messageType lv with
    | none => exact ih _ _
    | some ty => exact ih (k + 1) (p.addCallback i.topic ⟨k, ty⟩)

theorem setup_republishers (lv : Bool) (inputs : List BagInput) (conns : List String) (t : String) :
    (setup lv inputs conns).republishers.lookup t = if t = "/tf" ∨ t = "/tf_static" ∨ t = "/clock" ∧ "/clock" ∈ conns then some t else none := by
  unfold setup
  dsimp only
  have h0 := (addInputs_rest lv inputs 0 {}).1
  by_cases hc : "/clock" ∈ conns
  · rw [if_pos hc]
    simp only [addRepublisher, lookup_tryEmplace, h0]
    by_cases h1 : t = "/tf"
    · subst h1; simp
    · by_cases h2 : t = "/tf_static"
      · subst h2; simp
      · by_cases h3 : t = "/clock" <;> simp_all
  · rw [if_neg hc]
    simp only [enableSimulatedClock, addRepublisher, lookup_tryEmplace, h0]
    by_cases h1 : t = "/tf"
    · subst h1; simp
    · by_cases h2 : t = "/tf_static" <;> simp_all

theorem setup_clock (lv : Bool) (inputs : List BagInput) (conns : List String) :
    (setup lv inputs conns).simulatedClock = !decide ("/clock" ∈ conns) := by
  unfold setup
  dsimp only
  by_cases hc : "/clock" ∈ conns
  · rw [if_pos hc]
    simp [addRepublisher, (addInputs_rest lv inputs 0 {}).2, hc]
  · rw [if_neg hc]
    simp [enableSimulatedClock, hc]

/-! ## The loop -/

/-- What one message causes. -/
def msgEvents (p : RosbagProcessor) (due : Bool) (m : BagMessage D) : List (BagEvent D) :=
  (match p.callbacks.lookup m.topic with | some cb => [.deliver cb.input m] | none => []) ++ p.handleRepublishing m ++
    (if due then p.sideTasks m.time else [])

/-- One iteration of the loop. -/
theorem processFrom_cons {p : RosbagProcessor} {ok : Nat → Bool} {k last : Nat} {m : BagMessage D} {ms : List (BagMessage D)}
    {events : List (BagEvent D)} (h : p.processFrom ok k last (m :: ms) = .done (true, events)) :
    ok k = true ∧ ∃ (due : Bool) (rest : List (BagEvent D)),
      (due = true ↔ m.time < last ∨ last + 10 ^ 7 < m.time) ∧
      p.processFrom ok (k + 1) (if due then m.time else last) ms = .done (true, rest) ∧
      (∀ cb, p.callbacks.lookup m.topic = some cb → cb.type = m.type) ∧
      events = msgEvents p due m ++ rest := by
  rw [processFrom] at h
  by_cases hok : ok k = true
  · rw [if_pos hok] at h
    refine ⟨hok, ?_⟩
    obtain ⟨called, h1, h⟩ := Outcome.bind_done h
    obtain ⟨due, h2, h⟩ := Outcome.bind_done h
    obtain ⟨rest, h3, h⟩ := Outcome.bind_done h
    simp only [Outcome.done.injEq, Prod.mk.injEq] at h
    obtain ⟨h4, h5⟩ := h
    refine ⟨due, rest.2, ?_, by rw [h3, ← h4], ?_, ?_⟩
    · unfold sideTasksDue at h2
      by_cases ht : m.time < last
      · rw [if_pos ht] at h2; cases h2; simp [ht]
      · rw [if_neg ht] at h2
        obtain ⟨next, e1, e2⟩ := Outcome.bind_done h2
        unfold addRosDuration at e1
        split at e1
        · simp only [Outcome.done.injEq] at e1 e2
          rw [← e2, ← e1, decide_eq_true_iff]
          omega
        · cases e1
    · intro cb hcb
      unfold handleCallbacks at h1
      rw [hcb] at h1
      simp only [call] at h1
      split at h1
      · assumption
      · cases h1
    · rw [← h5, msgEvents]
      congr 3
      unfold handleCallbacks at h1
      cases hcb : p.callbacks.lookup m.topic with
      | none => rw [hcb] at h1; cases h1; rfl
      | some cb =>
        rw [hcb] at h1
        simp only [call] at h1
        split at h1
        · cases h1; rfl
        · cases h1
  · rw [if_neg hok] at h; cases h

theorem deliveredTo_append (i : Nat) (a b : List (BagEvent D)) : deliveredTo i (a ++ b) = deliveredTo i a ++ deliveredTo i b :=
  List.filterMap_append

theorem deliveredTo_msgEvents (p : RosbagProcessor) (i : Nat) (due : Bool) (m : BagMessage D) :
    deliveredTo i (msgEvents p due m) = match p.callbacks.lookup m.topic with | some cb => if cb.input = i then [m] else [] | none => [] := by
  unfold msgEvents
  rw [deliveredTo_append, deliveredTo_append]
  have h2 : deliveredTo i (p.handleRepublishing m) = [] := by
    unfold handleRepublishing; split <;> rfl
  have h3 : deliveredTo i (if due then p.sideTasks m.time else [] : List (BagEvent D)) = [] := by
    unfold sideTasks; cases due <;> cases p.simulatedClock <;> rfl
  rw [h2, h3]
  cases p.callbacks.lookup m.topic with
  | none => rfl
  | some cb =>
    simp only [deliveredTo, List.filterMap_cons, List.filterMap_nil, List.append_nil]
    by_cases h : cb.input = i <;> simp [h]

theorem delivered_loop {p : RosbagProcessor} {ok : Nat → Bool} {k last : Nat} {view : List (BagMessage D)} {events : List (BagEvent D)} (i : Nat)
    (h : p.processFrom ok k last view = .done (true, events)) :
    deliveredTo i events = view.filter (fun m => match p.callbacks.lookup m.topic with | some cb => decide (cb.input = i) | none => false) ∧
    ∀ m ∈ view, ∀ cb, p.callbacks.lookup m.topic = some cb → cb.type = m.type := by
  induction view generalizing k last events with
  | nil => cases h; exact ⟨rfl, by simp⟩
  | cons m ms ih =>
    obtain ⟨-, due, rest, -, hr, ht, he⟩ := processFrom_cons h
    obtain ⟨h1, h2⟩ := ih hr
    refine ⟨?_, ?_⟩
    · rw [he, deliveredTo_append, deliveredTo_msgEvents, h1, List.filter_cons]
      cases p.callbacks.lookup m.topic with
      | none => rfl
      | some cb => by_cases e : cb.input = i <;> simp [e]
    · intro m' hm' cb hcb
      rcases List.mem_cons.1 hm' with e | e
      · subst e; exact ht cb hcb
      · exact h2 m' e cb hcb

/-- C78 (measurements): when a bag has been processed, every input has got every message on its topic, once and in the order of the bag; and nothing else. This
holds for inputs that are the first ones on their topics. -/
theorem C78_delivered_partial (livoxAvailable : Bool) (inputs : List BagInput) (connections : List String) (ok : Nat → Bool) (view : List (BagMessage D))
    (events : List (BagEvent D)) (h : (setup livoxAvailable inputs connections).processAll ok view = .done (true, events)) (i : Nat) (x : BagInput)
    (type : String) (hi : inputs[i]? = some x) (hx : x.messageType livoxAvailable = some type) (hf : FirstOnTopic livoxAvailable inputs i x.topic) :
    deliveredTo i events = view.filter (fun m => m.topic = x.topic) ∧ ∀ m ∈ view, m.topic = x.topic → m.type = type := by
  obtain ⟨h1, h2⟩ := delivered_loop i h
  have hl : ∀ t cb, _ := fun t cb => lookup_callbacks livoxAvailable t inputs 0 cb
  simp only [← setup_callbacks livoxAvailable inputs connections] at hl
  have hcb : (setup livoxAvailable inputs connections).callbacks.lookup x.topic = some ⟨i, type⟩ :=
    (hl _ _).2 ⟨i, x, hi, (Nat.zero_add i).symm, hx, rfl, hf⟩
  refine ⟨?_, fun m hm ht => (h2 m hm _ (by rw [ht]; exact hcb)).symm⟩
  rw [h1]
  refine List.filter_congr fun m _ => ?_
  by_cases e : m.topic = x.topic
  · rw [e, hcb]; simp
  · rw [decide_eq_false e]
    cases hm : (setup livoxAvailable inputs connections).callbacks.lookup m.topic with
    | none => rfl
    | some cb =>
      obtain ⟨i', x', a1, a2, a3, a4, a5⟩ := (hl _ _).1 hm
      refine decide_eq_false fun e' => e ?_
      rw [Nat.zero_add, e'] at a2
      subst a2
      rw [hi] at a1
      cases a1
      exact a4.symm

/-- C78 fails for the other inputs: an input whose topic is already used by an earlier input gets nothing. (Both get all messages from a running robot.) -/
theorem C78_shared_topic_fails (livoxAvailable : Bool) (inputs : List BagInput) (connections : List String) (ok : Nat → Bool) (view : List (BagMessage D))
    (events : List (BagEvent D)) (h : (setup livoxAvailable inputs connections).processAll ok view = .done (true, events)) (i j : Nat) (x y : BagInput)
    (hi : inputs[i]? = some x) (hj : inputs[j]? = some y) (hji : j < i) (hy : y.messageType livoxAvailable ≠ none) (ht : y.topic = x.topic) :
    deliveredTo i events = [] := by
  rw [(delivered_loop i h).1, List.filter_eq_nil_iff]
  intro m _
  cases hm : (setup livoxAvailable inputs connections).callbacks.lookup m.topic with
  | none => simp
  | some cb =>
    rw [setup_callbacks] at hm
    obtain ⟨i', x', a1, a2, a3, a4, a5⟩ := (lookup_callbacks livoxAvailable _ inputs 0 cb).1 hm
    simp only [decide_eq_true_iff]
    intro e
    rw [Nat.zero_add, e] at a2
    subst a2
    rw [hi] at a1
    cases a1
    exact a5 j y hji hj hy (by rw [ht, a4])

/-- C78 fails for an input whose topic is written without the leading `/`, which ROS adds for a running robot: it gets no message, as the names in bags have it. -/
theorem C78_relative_topic_fails (livoxAvailable : Bool) (inputs : List BagInput) (connections : List String) (ok : Nat → Bool) (view : List (BagMessage D))
    (events : List (BagEvent D)) (h : (setup livoxAvailable inputs connections).processAll ok view = .done (true, events))
    (hview : ∀ m ∈ view, m.topic.toList.head? = some '/') (i : Nat) (x : BagInput) (hi : inputs[i]? = some x) (hx : x.topic.toList.head? ≠ some '/') :
    deliveredTo i events = [] := by
  rw [(delivered_loop i h).1, List.filter_eq_nil_iff]
  intro m hm'
  cases hm : (setup livoxAvailable inputs connections).callbacks.lookup m.topic with
  | none => simp
  | some cb =>
    rw [setup_callbacks] at hm
    obtain ⟨i', x', a1, a2, a3, a4, a5⟩ := (lookup_callbacks livoxAvailable _ inputs 0 cb).1 hm
    simp only [decide_eq_true_iff]
    intro e
    rw [Nat.zero_add, e] at a2
    subst a2
    rw [hi] at a1
    cases a1
    exact hx (by rw [a4]; exact hview m hm')

/-- C78 fails if a topic of an input has a message of another type: a null pointer is dereferenced. -/
theorem C78_type_fails (livoxAvailable : Bool) (inputs : List BagInput) (connections : List String) (view : List (BagMessage D))
    (i : Nat) (x : BagInput) (type : String) (hi : inputs[i]? = some x) (hx : x.messageType livoxAvailable = some type)
    (hf : FirstOnTopic livoxAvailable inputs i x.topic) (m : BagMessage D) (hm : m.topic = x.topic) (ht : m.type ≠ type) :
    (setup livoxAvailable inputs connections).processAll (fun _ => true) (m :: view) = .undefined := by
  have hcb : (setup livoxAvailable inputs connections).callbacks.lookup m.topic = some ⟨i, type⟩ := by
    rw [setup_callbacks]
    exact (lookup_callbacks livoxAvailable _ inputs 0 _).2 ⟨i, x, hi, (Nat.zero_add i).symm, hx, hm.symm, by rw [hm]; exact hf⟩
  unfold processAll
  rw [processFrom, if_pos rfl, handleCallbacks, hcb]
  simp only [call]
  rw [if_neg (fun e => ht e.symm)]
  rfl

theorem republishedOn_append (t : String) (a b : List (BagEvent D)) : republishedOn t (a ++ b) = republishedOn t a ++ republishedOn t b :=
  List.filterMap_append

theorem republished_loop {p : RosbagProcessor} {ok : Nat → Bool} {k last : Nat} {view : List (BagMessage D)} {events : List (BagEvent D)} (t : String)
    (h : p.processFrom ok k last view = .done (true, events)) :
    republishedOn t events = view.filter (fun m => decide (p.republishers.lookup m.topic = some t)) := by
  induction view generalizing k last events with
  | nil => cases h; rfl
  | cons m ms ih =>
    obtain ⟨-, due, rest, -, hr, ht, he⟩ := processFrom_cons h
    rw [he, republishedOn_append, ih hr, List.filter_cons]
    have : republishedOn t (msgEvents p due m) = if p.republishers.lookup m.topic = some t then [m] else [] := by
      unfold msgEvents
      rw [republishedOn_append, republishedOn_append]
      have h1 : republishedOn t (match p.callbacks.lookup m.topic with | some cb => [.deliver cb.input m] | none => [] : List (BagEvent D)) = [] := by
        split <;> rfl
      have h3 : republishedOn t (if due then p.sideTasks m.time else [] : List (BagEvent D)) = [] := by
        unfold sideTasks; cases due <;> cases p.simulatedClock <;> rfl
      rw [h1, h3, List.nil_append, List.append_nil]
      unfold handleRepublishing
      cases p.republishers.lookup m.topic with
      | none => simp [republishedOn]
      | some t' => by_cases e : t' = t <;> simp [republishedOn, e]
    rw [this]
    by_cases e : p.republishers.lookup m.topic = some t <;> simp [e]

/-- C78 (poses): when a bag has been processed, all of its transforms have been published, once and in order; so has its clock if it has one. Nothing else is
published. -/
theorem C78_republished (livoxAvailable : Bool) (inputs : List BagInput) (connections : List String) (ok : Nat → Bool) (view : List (BagMessage D))
    (events : List (BagEvent D)) (h : (setup livoxAvailable inputs connections).processAll ok view = .done (true, events))
    (hconn : ∀ m ∈ view, m.topic ∈ connections) (t : String) :
    republishedOn t events = if t = "/tf" ∨ t = "/tf_static" ∨ t = "/clock" then view.filter (fun m => m.topic = t) else [] := by
  rw [republished_loop t h]
  by_cases ht : t = "/tf" ∨ t = "/tf_static" ∨ t = "/clock"
  · rw [if_pos ht]
    refine List.filter_congr fun m hm => ?_
    rw [setup_republishers]
    by_cases e : m.topic = t
    · have : m.topic = "/tf" ∨ m.topic = "/tf_static" ∨ m.topic = "/clock" ∧ "/clock" ∈ connections := by
        rcases ht with h | h | h
        · exact Or.inl (e.trans h)
        · exact Or.inr (Or.inl (e.trans h))
        · refine Or.inr (Or.inr ⟨e.trans h, ?_⟩)
          have := hconn m hm
          rwa [e, h] at this
      rw [if_pos this, e]
      simp
    · rw [decide_eq_false e]
      refine decide_eq_false ?_
      split
      · intro h; exact e (Option.some.inj h)
      · simp
  · rw [if_neg ht, List.filter_eq_nil_iff]
    intro m _
    simp only [decide_eq_true_iff]
    rw [setup_republishers]
    split
    · rename_i hc
      intro e
      have e := Option.some.inj e
      rw [e] at hc
      rcases hc with h | h | h
      · exact ht (Or.inl h)
      · exact ht (Or.inr (Or.inl h))
      · exact ht (Or.inr (Or.inr h.1))
    · simp

theorem processFrom_append {p : RosbagProcessor} {ok : Nat → Bool} {k last : Nat} {pre post : List (BagMessage D)} {events : List (BagEvent D)}
    (h : p.processFrom ok k last (pre ++ post) = .done (true, events)) :
    ∃ e1 e2 last', p.processFrom ok k last pre = .done (true, e1) ∧ p.processFrom ok (k + pre.length) last' post = .done (true, e2) ∧ events = e1 ++ e2 ∧
      (∀ m, pre.getLast? = some m → last' ≤ m.time ∧ m.time ≤ last' + 10 ^ 7) ∧ (pre = [] → last' = last) ∧
      (p.simulatedClock = true → (clockTimes e1).getLast?.getD last = last') ∧
      (last' = last ∨ ∃ m ∈ pre, m.time = last') := by
  induction pre generalizing k last events with
  | nil => exact ⟨[], events, last, rfl, h, rfl, by simp, fun _ => rfl, fun _ => rfl, Or.inl rfl⟩
  | cons m ms ih =>
    have hc := h
    rw [List.cons_append] at hc
    obtain ⟨hok, due, rest, hd, hr, ht, he⟩ := processFrom_cons hc
    obtain ⟨e1, e2, last', h1, h2, h3, h4, h5, h6, h7⟩ := ih hr
    have hpre : p.processFrom ok k last (m :: ms) = .done (true, msgEvents p due m ++ e1) := by
      rw [List.cons_append, processFrom] at h
      rw [processFrom]
      rw [if_pos hok] at h ⊢
      obtain ⟨called, a1, h⟩ := Outcome.bind_done h
      obtain ⟨due', a2, h⟩ := Outcome.bind_done h
      obtain ⟨rest', a3, h⟩ := Outcome.bind_done h
      rw [a1, a2]
      have hdue : due' = due := by
        have : due' = true ↔ m.time < last ∨ last + 10 ^ 7 < m.time := by
          unfold sideTasksDue at a2
          by_cases ht : m.time < last
          · rw [if_pos ht] at a2; cases a2; simp [ht]
          · rw [if_neg ht] at a2
            obtain ⟨next, e1, e2⟩ := Outcome.bind_done a2
            unfold addRosDuration at e1
            split at e1
            · simp only [Outcome.done.injEq] at e1 e2
              rw [← e2, ← e1, decide_eq_true_iff]
              omega
            · cases e1
        rw [Bool.eq_iff_iff, this, hd]
      subst hdue
      show ((p.processFrom ok (k + 1) (if due' = true then m.time else last) ms).bind _) = _
      rw [h1]
      have hcalled : called = match p.callbacks.lookup m.topic with | some cb => [.deliver cb.input m] | none => [] := by
        unfold handleCallbacks at a1
        cases hcb : p.callbacks.lookup m.topic with
        | none => rw [hcb] at a1; cases a1; rfl
        | some cb =>
          rw [hcb] at a1
          simp only [call] at a1
          split at a1
          · cases a1; rfl
          · cases a1
      show Outcome.done _ = _
      rw [hcalled]
      rfl
    refine ⟨msgEvents p due m ++ e1, e2, last', hpre, ?_, by rw [he, h3, List.append_assoc], ?_, by simp, ?_, ?_⟩
    · rw [List.length_cons, show k + (ms.length + 1) = k + 1 + ms.length by omega]
      exact h2
    · intro m' hm'
      cases ms with
      | nil =>
        simp only [List.getLast?_singleton, Option.some.injEq] at hm'
        subst hm'
        rw [h5 rfl]
        cases hdd : due with
        | true => simp
        | false =>
          rw [hdd] at hd
          simp only [Bool.false_eq_true, false_iff, not_or, not_lt] at hd
          simpa using hd
      | cons m2 ms2 => exact h4 m' (by simpa using hm')
    · intro hs
      rw [← h6 hs]
      unfold clockTimes
      rw [List.filterMap_append]
      have : List.filterMap (fun e => match e with | .clock t => some t | _ => none) (msgEvents p due m) = if due then [m.time] else [] := by
        unfold msgEvents
        rw [List.filterMap_append, List.filterMap_append]
        have a : List.filterMap (fun e : BagEvent D => match e with | .clock t => some t | _ => none)
            (match p.callbacks.lookup m.topic with | some cb => [.deliver cb.input m] | none => []) = [] := by split <;> rfl
        have b : List.filterMap (fun e : BagEvent D => match e with | .clock t => some t | _ => none) (p.handleRepublishing m) = [] := by
          unfold handleRepublishing; split <;> rfl
        rw [a, b]
        unfold sideTasks
        rw [hs]
        cases due <;> rfl
      rw [this, List.getLast?_append]
      cases due <;> simp
    · rcases h7 with h7 | ⟨m', hm', h7⟩
      · cases due with
        | false => exact Or.inl h7
        | true => exact Or.inr ⟨m, List.mem_cons_self, h7.symm⟩
      · exact Or.inr ⟨m', List.mem_cons_of_mem _ hm', h7⟩

/-- C78 (order): messages are handled in the order of the bag: what is done for the first part of the bag is done before what is done for the rest. With
`C78_delivered_partial` and `C78_republished`: a measurement is received after all transforms that were recorded before it have been published. -/
theorem C78_order (p : RosbagProcessor) (ok : Nat → Bool) (pre post : List (BagMessage D)) (events : List (BagEvent D))
    (h : p.processAll ok (pre ++ post) = .done (true, events)) :
    ∃ e1 e2, p.processAll ok pre = .done (true, e1) ∧ events = e1 ++ e2 := by
  obtain ⟨e1, e2, -, h1, -, h3, -⟩ := processFrom_append h
  exact ⟨e1, e2, h1, h3⟩

/-- C78 (clock): if the bag has no clock, then after each of its messages the time last published (0 at the start) is at most the time of the message, and at most
10 milliseconds older. Also if the times in the bag jump back. -/
theorem C78_clock (livoxAvailable : Bool) (inputs : List BagInput) (connections : List String) (hc : "/clock" ∉ connections) (ok : Nat → Bool)
    (pre post : List (BagMessage D)) (m : BagMessage D) (events : List (BagEvent D))
    (h : (setup livoxAvailable inputs connections).processAll ok (pre ++ m :: post) = .done (true, events)) :
    ∃ e1 e2 now, events = e1 ++ e2 ∧ (setup livoxAvailable inputs connections).processAll ok (pre ++ [m]) = .done (true, e1) ∧
      (clockTimes e1).getLast?.getD 0 = now ∧ now ≤ m.time ∧ m.time ≤ now + 10 ^ 7 := by
  rw [show pre ++ m :: post = (pre ++ [m]) ++ post by simp] at h
  obtain ⟨e1, e2, last', h1, -, h3, h4, -, h6, -⟩ := processFrom_append h
  refine ⟨e1, e2, last', h3, h1, h6 (by rw [setup_clock]; simpa using hc), h4 m (by simp)⟩

theorem clock_loop {p : RosbagProcessor} (hs : p.simulatedClock = true) {ok : Nat → Bool} {k last : Nat} {view : List (BagMessage D)} {events : List (BagEvent D)}
    (h : p.processFrom ok k last view = .done (true, events)) :
    (clockTimes events).Sublist (view.map (·.time)) ∧
    (view.Pairwise (fun a b => a.time ≤ b.time) → (∀ m ∈ view, last ≤ m.time) → (clockTimes events).Pairwise (fun s t => s + 10 ^ 7 < t) ∧
      ∀ t ∈ clockTimes events, last + 10 ^ 7 < t) := by
  induction view generalizing k last events with
  | nil => cases h; exact ⟨.slnil, fun _ _ => ⟨.nil, by simp [clockTimes]⟩⟩
  | cons m ms ih =>
    obtain ⟨hok, due, rest, hd, hr, ht, he⟩ := processFrom_cons h
    obtain ⟨h1, h2⟩ := ih hr
    have key : clockTimes (msgEvents p due m) = if due then [m.time] else [] := by
      unfold msgEvents clockTimes
      rw [List.filterMap_append, List.filterMap_append]
      have a : List.filterMap (fun e : BagEvent D => match e with | .clock t => some t | _ => none)
          (match p.callbacks.lookup m.topic with | some cb => [.deliver cb.input m] | none => []) = [] := by split <;> rfl
      have b : List.filterMap (fun e : BagEvent D => match e with | .clock t => some t | _ => none) (p.handleRepublishing m) = [] := by
        unfold handleRepublishing; split <;> rfl
      rw [a, b]
      unfold sideTasks
      rw [hs]
      cases due <;> rfl
    have happ : clockTimes events = (if due then [m.time] else []) ++ clockTimes rest := by
      rw [he, ← key]; exact List.filterMap_append
    rw [happ]
    cases hdd : due with
    | false =>
      rw [hdd] at h2
      refine ⟨h1.cons _, fun hp hl => ?_⟩
      exact h2 (List.pairwise_cons.1 hp).2 (fun m' hm' => hl m' (List.mem_cons_of_mem _ hm'))
    | true =>
      rw [hdd] at h2 hd
      refine ⟨h1.cons_cons _, fun hp hl => ?_⟩
      obtain ⟨a, b⟩ := h2 (List.pairwise_cons.1 hp).2 (fun m' hm' => (List.pairwise_cons.1 hp).1 m' hm')
      have hlt : last + 10 ^ 7 < m.time := by
        rcases hd.1 rfl with h | h
        · have := hl m List.mem_cons_self; omega
        · exact h
      refine ⟨List.pairwise_cons.2 ⟨fun t ht => b t ht, a⟩, fun t ht => ?_⟩
      rcases List.mem_cons.1 ht with e | e
      · rw [e]; exact hlt
      · have : m.time + 10 ^ 7 < t := b t e
        omega

/-- C78 (clock): the times published are times of messages; for a bag in order of time they increase, by more than 10 milliseconds each. -/
theorem C78_clock_increases (livoxAvailable : Bool) (inputs : List BagInput) (connections : List String) (hc : "/clock" ∉ connections) (ok : Nat → Bool)
    (view : List (BagMessage D)) (events : List (BagEvent D)) (h : (setup livoxAvailable inputs connections).processAll ok view = .done (true, events)) :
    (clockTimes events).Sublist (view.map (·.time)) ∧
    (view.Pairwise (fun a b => a.time ≤ b.time) → (clockTimes events).Pairwise (fun s t => s + 10 ^ 7 < t)) := by
  obtain ⟨h1, h2⟩ := clock_loop (by rw [setup_clock]; simpa using hc) h
  exact ⟨h1, fun hp => (h2 hp (fun _ _ => Nat.zero_le _)).1⟩

/-- C78 (clock): if the bag has a clock, no other time is published. -/
theorem C78_own_clock (livoxAvailable : Bool) (inputs : List BagInput) (connections : List String) (hc : "/clock" ∈ connections) (ok : Nat → Bool)
    (view : List (BagMessage D)) (events : List (BagEvent D)) (h : (setup livoxAvailable inputs connections).processAll ok view = .done (true, events)) :
    clockTimes events = [] := by
  have hs : (setup livoxAvailable inputs connections).simulatedClock = false := by rw [setup_clock]; simpa using hc
  have : ∀ (p : RosbagProcessor), p.simulatedClock = false → ∀ (view : List (BagMessage D)) (k last : Nat) (events : List (BagEvent D)),
      p.processFrom ok k last view = .done (true, events) → clockTimes events = [] := by
    intro p hp view
    induction view with
    | nil => intro k last events h; cases h; rfl
    | cons m ms ih =>
      intro k last events h
      obtain ⟨hok, due, rest, hd, hr, ht, he⟩ := processFrom_cons h
      rw [he]
      have a : clockTimes (msgEvents p due m) = [] := by
        unfold msgEvents clockTimes
        rw [List.filterMap_append, List.filterMap_append]
        have a : List.filterMap (fun e : BagEvent D => match e with | .clock t => some t | _ => none)
            (match p.callbacks.lookup m.topic with | some cb => [.deliver cb.input m] | none => []) = [] := by split <;> rfl
        have b : List.filterMap (fun e : BagEvent D => match e with | .clock t => some t | _ => none) (p.handleRepublishing m) = [] := by
          unfold handleRepublishing; split <;> rfl
        rw [a, b]
        unfold sideTasks
        rw [hp]
        cases due <;> rfl
      exact (List.filterMap_append).trans (by
        show clockTimes (msgEvents p due m) ++ clockTimes rest = []
        rw [a, ih _ _ _ hr]; rfl)
  exact this _ hs view 0 0 events h

/-- C78 (interruption): if the application is stopped before the `k`-th message, exactly the messages before it have been handled, and the application returns without
finishing the map. -/
theorem C78_interrupted (p : RosbagProcessor) (ok : Nat → Bool) (pre post : List (BagMessage D)) (m : BagMessage D) (events : List (BagEvent D))
    (h : p.processAll ok pre = .done (true, events)) (hk : ok pre.length = false) :
    p.processAll ok (pre ++ m :: post) = .done (false, events) ∧
    ∀ (E M X W : Type) (input : Nat) (timer : Nat → List (Nat → E)) (accept : D → Outcome (Option M)) (step : E → M → M → Outcome (QueueStep X))
      (run : X → W → W) (finish : W → W) (w : W), processBag p ok (pre ++ m :: post) input timer accept step run finish w = .done none := by
  have key : p.processAll ok (pre ++ m :: post) = .done (false, events) := by
    have : ∀ (pre : List (BagMessage D)) (k last : Nat) (events : List (BagEvent D)), ok (k + pre.length) = false →
        p.processFrom ok k last pre = .done (true, events) → p.processFrom ok k last (pre ++ m :: post) = .done (false, events) := by
      intro pre
      induction pre with
      | nil =>
        intro k last events hk h
        cases h
        rw [List.nil_append, processFrom, if_neg]
        simpa using hk
      | cons m' ms ih =>
        intro k last events hk h
        rw [List.cons_append, processFrom]
        rw [processFrom] at h
        by_cases hok : ok k = true
        · rw [if_pos hok] at h ⊢
          obtain ⟨called, h1, h⟩ := Outcome.bind_done h
          obtain ⟨due, h2, h⟩ := Outcome.bind_done h
          obtain ⟨rest, h3, h⟩ := Outcome.bind_done h
          simp only [Outcome.done.injEq, Prod.mk.injEq] at h
          rw [h1, h2]
          simp only [Outcome.bind]
          rw [ih (k + 1) _ rest.2 (by rw [← hk, List.length_cons]; congr 1; omega) (by rw [h3, ← h.1]), ← h.2]
        · rw [if_neg hok] at h; cases h
    exact this pre 0 0 events (by simpa using hk) h
  refine ⟨key, fun E M X W input timer accept step run finish w => ?_⟩
  unfold processBag
  rw [key]
  rfl

/-! ## What becomes of the measurements -/

theorem arrivals_append {Msg E : Type} (a b : List (InputEvent Msg E)) : arrivals (a ++ b) = arrivals a ++ arrivals b := by
  induction a with
  | nil => rfl
  | cons e es ih => cases e <;> simp [arrivals, ih]

theorem arrivals_process {Msg E : Type} (l : List (Nat → E)) : arrivals (l.map (InputEvent.process (Msg := Msg))) = [] := by
  induction l with
  | nil => rfl
  | cons e es ih => exact ih

theorem arrivals_inputHistory {E : Type} (input : Nat) (timer : Nat → List (Nat → E)) (j : Nat) (events : List (BagEvent D)) :
    arrivals (inputHistory input timer j events) = (deliveredTo input events).map (·.data) := by
  induction events generalizing j with
  | nil => rfl
  | cons e es ih =>
    cases e with
    | deliver i msg =>
      unfold inputHistory deliveredTo
      by_cases h : i = input
      · rw [if_pos h]
        simp only [arrivals, ih]
        simp [h, deliveredTo]
      · rw [if_neg h, ih]
        simp [h, deliveredTo]
    | republish t msg => exact ih j
    | clock t => exact ih j
    | spin =>
      unfold inputHistory
      rw [arrivals_append, arrivals_process, List.nil_append, ih]
      rfl

theorem process_mem_inputHistory {E : Type} {input : Nat} {timer : Nat → List (Nat → E)} {j : Nat} {events : List (BagEvent D)} {env : Nat → E}
    (h : InputEvent.process env ∈ inputHistory input timer j events) : ∃ j', env ∈ timer j' := by
  induction events generalizing j with
  | nil => simp [inputHistory] at h
  | cons e es ih =>
    cases e with
    | deliver i' msg =>
      unfold inputHistory at h
      split at h
      · rcases List.mem_cons.1 h with e | e
        · cases e
        · exact ih e
      · exact ih h
    | republish t msg => exact ih (j := j) h
    | clock t => exact ih (j := j) h
    | spin =>
      unfold inputHistory at h
      rcases List.mem_append.1 h with e | e
      · obtain ⟨env', e1, e2⟩ := List.mem_map.1 e
        cases e2
        exact ⟨j, e1⟩
      · exact ih e

/-- C78 (images): when the application has processed a bag, the images on the topic of a depth camera have been integrated once each and in order, with the poses at their
times, or given up because no pose was known within the time to wait, or are still waiting. This is `C68_images` for the history that the bag gives. -/
theorem C78_images_partial {Y W P : Type} (livoxAvailable : Bool) (inputs : List BagInput) (connections : List String) (ok : Nat → Bool)
    (view : List (BagMessage (DepthMsg D))) (i : Nat) (x : BagInput) (hi : inputs[i]? = some x) (hx : x.kind = .depthImage)
    (hf : FirstOnTopic livoxAvailable inputs i x.topic) (timer : Nat → List (Nat → Tf P)) (c : DepthInputConfig) (convert : D → Option Y)
    (run : P × Y → W → W) (finish : W → W) (w w' : W) (left : List (DepthMsg D))
    (h : processBag (setup livoxAvailable inputs connections) ok view i timer (fun m => .done (some m)) (depthStep c convert) run finish w =
      .done (some (left, w'))) :
    ∃ (fates : List (DepthMsg D × Option (P × Y))) (w1 : W), w' = finish w1 ∧
      Fates ((view.filter (fun m => m.topic = x.topic)).map (·.data)) left fates run w w1 ∧
      (∀ image pose y, (image, some (pose, y)) ∈ fates → convert image.data = some y ∧
        ∃ (tf : Tf P) (stamp : Nat), (∃ j env k, env ∈ timer j ∧ env k = tf) ∧ (stamp : Int) = image.stamp + c.timeOffset ∧
          tf (sanitizeFrameId (if c.sensorFrameId = "" then image.frame else c.sensorFrameId)) stamp = some pose) := by
  unfold processBag at h
  obtain ⟨⟨b, events⟩, h1, h⟩ := Outcome.bind_done h
  cases b with
  | false => cases h
  | true =>
    rw [if_pos rfl] at h
    obtain ⟨⟨left', w1⟩, h2, h⟩ := Outcome.bind_done h
    cases h
    obtain ⟨fates, a1, a2, -⟩ := C68_images c convert run _ w w1 left' h2
    refine ⟨fates, w1, rfl, ?_, fun image pose y hm => ?_⟩
    · rw [← (C78_delivered_partial livoxAvailable inputs connections ok view events h1 i x "sensor_msgs/Image" hi
        (by unfold BagInput.messageType; rw [hx]) hf).1, ← arrivals_inputHistory i timer 0 events]
      exact a1
    · obtain ⟨b1, tf, stamp, ⟨env, k, b2, b3⟩, b4⟩ := a2 image pose y hm
      refine ⟨b1, tf, stamp, ?_, b4⟩
      obtain ⟨j, hj⟩ := process_mem_inputHistory b2
      exact ⟨j, env, k, hj, b3⟩

theorem inputHistory_append {E : Type} (input : Nat) (timer : Nat → List (Nat → E)) (j : Nat) (a b : List (BagEvent D)) :
    ∃ j', inputHistory input timer j (a ++ b) = inputHistory input timer j a ++ inputHistory input timer j' b := by
  induction a generalizing j with
  | nil => exact ⟨j, rfl⟩
  | cons e es ih =>
    cases e with
    | deliver i msg =>
      obtain ⟨j', h⟩ := ih j
      refine ⟨j', ?_⟩
      rw [List.cons_append]
      simp only [inputHistory]
      split <;> simp [h]
    | republish t msg => exact ih j
    | clock t => exact ih j
    | spin =>
      obtain ⟨j', h⟩ := ih (j + 1)
      refine ⟨j', ?_⟩
      rw [List.cons_append]
      simp only [inputHistory]
      rw [h, List.append_assoc]

theorem runInput_append {Msg E M X W : Type} (accept : Msg → Outcome (Option M)) (step : E → M → M → Outcome (QueueStep X)) (run : X → W → W)
    (a b : List (InputEvent Msg E)) (q : List M) (w : W) :
    runInput accept step run (a ++ b) q w = (runInput accept step run a q w).bind fun r => runInput accept step run b r.1 r.2 := by
  induction a generalizing q w with
  | nil => rfl
  | cons e es ih =>
    cases e with
    | arrive msg =>
      simp only [List.cons_append, runInput]
      cases accept msg with
      | done o => exact ih _ _
      | abort => rfl
      | undefined => rfl
    | process env =>
      simp only [List.cons_append, runInput]
      cases drainQueue (fun k => step (env k)) run 0 q w with
      | done r => exact ih _ _
      | abort => rfl
      | undefined => rfl

/-- C78 fails for the last measurements of a bag: the application does not process the queues once more when the bag ends. If the last message is a measurement and was recorded at most
10 milliseconds after another message (which in turn comes more than 10 milliseconds after the rest), it is still in the queue of its input when the application has finished, however
often the timers call, and whatever poses are known: it is not in the map. -/
theorem C78_last_fails {E M X W : Type} (livoxAvailable : Bool) (inputs : List BagInput) (connections : List String) (ok : Nat → Bool)
    (pre : List (BagMessage D)) (n m : BagMessage D) (i : Nat) (x : BagInput) (type : String) (hi : inputs[i]? = some x)
    (hx : x.messageType livoxAvailable = some type) (hf : FirstOnTopic livoxAvailable inputs i x.topic) (hm : m.topic = x.topic)
    (hpre : ∀ m' ∈ pre, m'.time + 10 ^ 7 < n.time) (hn : 10 ^ 7 < n.time) (h1 : n.time ≤ m.time) (h2 : m.time ≤ n.time + 10 ^ 7)
    (timer : Nat → List (Nat → E)) (accept : D → Outcome (Option M)) (step : E → M → M → Outcome (QueueStep X)) (run : X → W → W) (finish : W → W)
    (w w' : W) (left : List M) (q : M) (hq : accept m.data = .done (some q))
    (h : processBag (setup livoxAvailable inputs connections) ok (pre ++ [n, m]) i timer accept step run finish w = .done (some (left, w'))) :
    left.getLast? = some q := by
  unfold processBag at h
  obtain ⟨⟨b, events⟩, hp, h⟩ := Outcome.bind_done h
  cases b with
  | false => cases h
  | true =>
    rw [if_pos rfl] at h
    obtain ⟨⟨left', w1⟩, hr, h⟩ := Outcome.bind_done h
    cases h
    obtain ⟨e1, e2, last', -, b2, b3, -, -, -, b7⟩ := processFrom_append hp
    obtain ⟨-, due1, r1, c1, c2, -, c4⟩ := processFrom_cons b2
    obtain ⟨-, due2, r2, d1, d2, -, d4⟩ := processFrom_cons c2
    cases d2
    have hd1 : due1 = true := by
      refine c1.2 (Or.inr ?_)
      rcases b7 with e | ⟨m', hm', e⟩
      · rw [e]; omega
      · rw [← e]; exact hpre m' hm'
    subst hd1
    have hd2 : due2 = false := by
      cases due2 with
      | false => rfl
      | true =>
        have := d1.1 rfl
        simp only [if_pos] at this
        omega
    subst hd2
    have hcb : (setup livoxAvailable inputs connections).callbacks.lookup m.topic = some ⟨i, type⟩ := by
      rw [setup_callbacks]
      exact (lookup_callbacks livoxAvailable _ inputs 0 _).2 ⟨i, x, hi, (Nat.zero_add i).symm, hx, hm.symm, by rw [hm]; exact hf⟩
    obtain ⟨j1, f1⟩ := inputHistory_append i timer 0 (e1 ++ msgEvents (setup livoxAvailable inputs connections) true n)
      (msgEvents (setup livoxAvailable inputs connections) false m)
    have hist : inputHistory i timer j1 (msgEvents (setup livoxAvailable inputs connections) false m) = [.arrive m.data] := by
      unfold msgEvents
      rw [hcb]
      simp only [List.cons_append, List.nil_append, inputHistory, if_pos]
      unfold handleRepublishing
      split <;> rfl
    have he : events = (e1 ++ msgEvents (setup livoxAvailable inputs connections) true n) ++ msgEvents (setup livoxAvailable inputs connections) false m := by
      rw [b3, c4, d4, List.append_assoc, List.append_nil]
    rw [he, f1, hist, runInput_append] at hr
    obtain ⟨⟨q0, w0⟩, -, hr⟩ := Outcome.bind_done hr
    simp only [runInput, hq, Outcome.bind, Outcome.done.injEq, Prod.mk.injEq] at hr
    rw [← hr.1]
    simp

/-- C78 (completeness): if the bag goes on for more than 10 milliseconds after the last image, the retry timer runs whenever the node spins, and the poses are known, then no image is
left behind. -/
theorem C78_complete_partial {Y W P : Type} (livoxAvailable : Bool) (inputs : List BagInput) (connections : List String) (ok : Nat → Bool)
    (pre : List (BagMessage (DepthMsg D))) (m : BagMessage (DepthMsg D)) (i : Nat) (x : BagInput) (hi : inputs[i]? = some x)
    (hm : m.topic ≠ x.topic) (hpre : ∀ m' ∈ pre, m'.time + 10 ^ 7 < m.time) (hm0 : 10 ^ 7 < m.time)
    (timer : Nat → List (Nat → Tf P)) (c : DepthInputConfig) (convert : D → Option Y) (hconv : ∀ d, convert d ≠ none)
    (htimer : ∀ j, timer j ≠ []) (htf : ∀ j env k frame t, env ∈ timer j → env k frame t ≠ none)
    (run : P × Y → W → W) (finish : W → W) (w w' : W) (left : List (DepthMsg D))
    (h : processBag (setup livoxAvailable inputs connections) ok (pre ++ [m]) i timer (fun m => .done (some m)) (depthStep c convert) run finish w =
      .done (some (left, w'))) : left = [] := by
  unfold processBag at h
  obtain ⟨⟨b, events⟩, hp, h⟩ := Outcome.bind_done h
  cases b with
  | false => cases h
  | true =>
    rw [if_pos rfl] at h
    obtain ⟨⟨left', w1⟩, hr, h⟩ := Outcome.bind_done h
    cases h
    obtain ⟨e1, e2, last', -, b2, b3, -, -, -, b7⟩ := processFrom_append hp
    obtain ⟨-, due1, r1, c1, c2, -, c4⟩ := processFrom_cons b2
    cases c2
    have hd1 : due1 = true := by
      refine c1.2 (Or.inr ?_)
      rcases b7 with e | ⟨m', hm', e⟩
      · rw [e]; omega
      · rw [← e]; exact hpre m' hm'
    subst hd1
    obtain ⟨j1, f1⟩ := inputHistory_append i timer 0 e1 (msgEvents (setup livoxAvailable inputs connections) true m)
    have hist : inputHistory i timer j1 (msgEvents (setup livoxAvailable inputs connections) true m) = (timer j1).map .process := by
      unfold msgEvents sideTasks
      have hrep : ∀ l : List (BagEvent (DepthMsg D)), inputHistory i timer j1 ((setup livoxAvailable inputs connections).handleRepublishing m ++ l) =
          inputHistory i timer j1 l := fun l => by unfold handleRepublishing; split <;> rfl
      have hend : inputHistory i timer j1 ((if (setup livoxAvailable inputs connections).simulatedClock = true then [.clock m.time] else []) ++ [.spin] :
          List (BagEvent (DepthMsg D))) = (timer j1).map .process := by
        split <;> simp [inputHistory]
      rw [if_pos rfl, List.append_assoc]
      cases hcb : (setup livoxAvailable inputs connections).callbacks.lookup m.topic with
      | none => rw [List.nil_append, hrep, hend]
      | some cb =>
        have hne : cb.input ≠ i := by
          rw [setup_callbacks] at hcb
          obtain ⟨i', x', a1, a2, a3, a4, a5⟩ := (lookup_callbacks livoxAvailable _ inputs 0 cb).1 hcb
          rw [Nat.zero_add] at a2
          rintro rfl
          rw [a2, a1] at hi
          cases hi
          exact hm a4.symm
        simp only [List.cons_append, List.nil_append, inputHistory, if_neg hne]
        rw [hrep, hend]
    have he : events = e1 ++ msgEvents (setup livoxAvailable inputs connections) true m := by rw [b3, c4, List.append_nil]
    obtain ⟨env, henv⟩ : ∃ env, (timer j1).getLast? = some env := ⟨_, List.getLast?_eq_some_getLast (htimer j1)⟩
    obtain ⟨ys, hys⟩ := List.getLast?_eq_some_iff.1 henv
    rw [he, f1, hist, hys, List.map_append, ← List.append_assoc, runInput_append] at hr
    obtain ⟨⟨q0, w0⟩, -, hr⟩ := Outcome.bind_done hr
    simp only [List.map_cons, List.map_nil, runInput] at hr
    obtain ⟨⟨q1, w2⟩, hd, hr⟩ := Outcome.bind_done hr
    simp only [Outcome.done.injEq, Prod.mk.injEq] at hr
    have hmem : env ∈ timer j1 := List.mem_of_getLast? henv
    rcases C68_images_waiting c convert run env q0 q1 w0 w2 hd with e | ⟨image, rest, -, e | ⟨⟨k, stamp, -, e⟩, -⟩⟩
    · rw [← hr.1, e]
    · exact absurd e (hconv _)
    · exact absurd e (htf j1 env k _ _ hmem)

/-! ## Examples -/

/-- Two point cloud inputs and a camera. -/
def bagInputs : List BagInput := [⟨.pointcloud false, "/points"⟩, ⟨.depthImage, "/depth"⟩, ⟨.pointcloud false, "/points"⟩, ⟨.other, "/points"⟩]

/-- A recording. -/
def exampleBag : List (BagMessage Nat) :=
  [⟨"/tf", 10 ^ 9, "tf/tfMessage", 0⟩, ⟨"/points", 10 ^ 9 + 5, "sensor_msgs/PointCloud2", 1⟩, ⟨"/other", 10 ^ 9 + 10 ^ 7, "x", 2⟩,
   ⟨"/depth", 10 ^ 9 + 10 ^ 7 + 1, "sensor_msgs/Image", 3⟩, ⟨"/points", 10 ^ 9 - 7, "sensor_msgs/PointCloud2", 4⟩]

example : (setup true bagInputs ["/tf", "/points", "/other", "/depth"]).processAll (fun _ => true) exampleBag = .done (true,
    [.republish "/tf" ⟨"/tf", 10 ^ 9, "tf/tfMessage", 0⟩, .clock (10 ^ 9), .spin,
     .deliver 0 ⟨"/points", 10 ^ 9 + 5, "sensor_msgs/PointCloud2", 1⟩,
     .deliver 1 ⟨"/depth", 10 ^ 9 + 10 ^ 7 + 1, "sensor_msgs/Image", 3⟩, .clock (10 ^ 9 + 10 ^ 7 + 1), .spin,
     .deliver 0 ⟨"/points", 10 ^ 9 - 7, "sensor_msgs/PointCloud2", 4⟩, .clock (10 ^ 9 - 7), .spin]) := by decide +kernel

example : FirstOnTopic true bagInputs 0 "/points" ∧ FirstOnTopic true bagInputs 1 "/depth" := by
  refine ⟨fun j y hj => absurd hj (by omega), fun j y hj hy _ => ?_⟩
  obtain rfl : j = 0 := by omega
  cases hy
  decide

/-- The hypotheses of `C78_last_fails` and `C78_complete_partial` can be met: an image at the end of the bag is left in the queue, but not if another message follows later. Here all poses are
known and the timer is called whenever the node spins. -/
theorem C78_last_example_fails :
    let view : List (BagMessage (DepthMsg Nat)) := [⟨"/depth", 10 ^ 9, "sensor_msgs/Image", ⟨10 ^ 9, "cam", 0⟩⟩, ⟨"/tf", 2 * 10 ^ 9, "tf/tfMessage", ⟨0, "", 1⟩⟩,
      ⟨"/depth", 2 * 10 ^ 9 + 5, "sensor_msgs/Image", ⟨2 * 10 ^ 9, "cam", 2⟩⟩]
    let bag := fun v => processBag (setup true bagInputs ["/tf", "/depth"]) (fun _ => true) v 1 (fun _ => [fun _ _ t => some t])
      (fun m => .done (some m)) (depthStep ⟨1, "", 0⟩ some) (fun x (w : List (Nat × Nat)) => w ++ [x]) id []
    bag view = .done (some ([⟨2 * 10 ^ 9, "cam", 2⟩], [(10 ^ 9, 0)])) ∧
    bag (view ++ [⟨"/tf", 3 * 10 ^ 9, "tf/tfMessage", ⟨0, "", 3⟩⟩]) = .done (some ([], [(10 ^ 9, 0), (2 * 10 ^ 9, 2)])) := by
  decide +kernel

/-- `C78_shared_topic_fails`, `C78_relative_topic_fails` and `C78_type_fails` on a recording. -/
example :
    let bag : List (BagMessage Nat) := [⟨"/points", 10 ^ 9, "sensor_msgs/PointCloud2", 1⟩]
    (setup true bagInputs ["/points"]).processAll (fun _ => true) bag =
      .done (true, [.deliver 0 ⟨"/points", 10 ^ 9, "sensor_msgs/PointCloud2", 1⟩, .clock (10 ^ 9), .spin]) ∧
    (setup true [⟨.pointcloud false, "points"⟩] ["/points"]).processAll (fun _ => true) bag = .done (true, [.clock (10 ^ 9), .spin]) ∧
    (setup true [⟨.pointcloud true, "/points"⟩] ["/points"]).processAll (fun _ => true) bag = .undefined ∧
    (setup false [⟨.pointcloud true, "/points"⟩] ["/points"]).processAll (fun _ => true) bag = .done (true, [.clock (10 ^ 9), .spin]) := by
  decide +kernel

/-- A recording with a clock, and an interruption. -/
example :
    let bag : List (BagMessage Nat) := [⟨"/clock", 10 ^ 9, "rosgraph_msgs/Clock", 1⟩, ⟨"/clock", 2 * 10 ^ 9, "rosgraph_msgs/Clock", 2⟩]
    (setup true bagInputs ["/clock"]).processAll (fun _ => true) bag =
      .done (true, [.republish "/clock" ⟨"/clock", 10 ^ 9, "rosgraph_msgs/Clock", 1⟩, .spin,
        .republish "/clock" ⟨"/clock", 2 * 10 ^ 9, "rosgraph_msgs/Clock", 2⟩, .spin]) ∧
    (setup true bagInputs ["/clock"]).processAll (fun k => k < 1) bag =
      .done (false, [.republish "/clock" ⟨"/clock", 10 ^ 9, "rosgraph_msgs/Clock", 1⟩, .spin]) := by
  decide +kernel

end Wavemap
