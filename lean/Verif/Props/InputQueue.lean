import Mathlib.Tactic.Linarith
import Mathlib.Tactic.NormNum
import Verif.Model.InputQueue
import Verif.Props.Undistortion
/-!
# C68: measurements are integrated in the order of arrival, with the pose at their own time
-/
namespace Wavemap
open Undistortion

variable {M X W P Q : Type}

/-! ## Specification -/

/-- Specification: the messages that arrive in a history, in order. -/
def arrivals {Msg E : Type} : List (InputEvent Msg E) → List Msg
  | [] => []
  | .arrive m :: es => m :: arrivals es
  | .process _ :: es => arrivals es

/-- Specification: `env` is what some call of `processQueue` sees of the TF buffer in some iteration. -/
def SeenBy {Msg E : Type} (events : List (InputEvent Msg E)) (e : E) : Prop := ∃ env k, InputEvent.process env ∈ events ∧ env k = e

/-- Specification: what became of the messages. Every message that was queued is either integrated or given up, in the order of arrival, or is still in the
queue. `fates` lists those that left the queue, with the measurement if it was integrated. -/
structure Fates (queued left : List M) (fates : List (M × Option X)) (run : X → W → W) (before after : W) : Prop where
  /-- Every message has left the queue exactly once, in the order of arrival, or waits. -/
  order : queued = fates.map Prod.fst ++ left
  /-- The pipeline was run once for each integrated message, in that order, and for nothing else. -/
  world : after = (fates.filterMap Prod.snd).foldl (fun w x => run x w) before

/-- Specification: the time of the earliest and the latest point of a cloud. -/
def EarliestTime (c : StampedCloud Q) (t : Nat) : Prop :=
  (∃ p ∈ c.cloud.points, t = (c.cloud.base + p.2) % 2 ^ 64 ∧ ∀ p' ∈ c.cloud.points, p.2 ≤ p'.2)

@[inherit_doc EarliestTime]
def LatestTime (c : StampedCloud Q) (t : Nat) : Prop :=
  (∃ p ∈ c.cloud.points, t = (c.cloud.base + p.2) % 2 ^ 64 ∧ ∀ p' ∈ c.cloud.points, p'.2 ≤ p.2)

/-! ## Draining -/

theorem drainQueue_spec (step : Nat → M → M → Outcome (QueueStep X)) (run : X → W → W) (q q' : List M) (w w' : W) (k : Nat)
    (h : drainQueue step run k q w = .done (q', w')) :
    ∃ fates : List (M × Option X), Fates q q' fates run w w' ∧
      (∀ (i : Nat) (f : M × Option X), fates[i]? = some f → ∃ newest, (∃ j, i ≤ j ∧ q[j]? = some newest) ∧
        ∃ k', step k' f.1 newest = .done (match f.2 with | some x => .integrate x | none => .discard)) ∧
      (∀ m, q'.head? = some m → ∃ newest k', q'.getLast? = some newest ∧ step k' m newest = .done .wait) := by
  induction q generalizing k w with
  | nil =>
    cases h
    exact ⟨[], ⟨rfl, rfl⟩, fun i f hf => (by simp at hf), fun m hm => (by simp at hm)⟩
  | cons m ms ih =>
    simp only [drainQueue] at h
    cases hs : step k m ((m :: ms).getLast (List.cons_ne_nil _ _)) with
    | abort => rw [hs] at h; cases h
    | undefined => rw [hs] at h; cases h
    | done s =>
      rw [hs] at h
      have hback : ∃ newest, (∃ j, 0 ≤ j ∧ (m :: ms)[j]? = some newest) ∧ (m :: ms).getLast (List.cons_ne_nil _ _) = newest :=
        ⟨_, ⟨(m :: ms).length - 1, Nat.zero_le _, by
          rw [← List.getLast?_eq_getElem?, List.getLast?_eq_some_getLast (List.cons_ne_nil _ _)]⟩, rfl⟩
      cases s with
      | wait =>
        simp only [Outcome.bind] at h
        cases h
        refine ⟨[], ⟨rfl, rfl⟩, fun i f hf => (by simp at hf), fun m' hm' => ?_⟩
        simp only [List.head?_cons, Option.some.injEq] at hm'
        subst hm'
        exact ⟨_, k, List.getLast?_eq_some_getLast (List.cons_ne_nil _ _), hs⟩
      | discard =>
        obtain ⟨fates, h1, h2, h3⟩ := ih w (k + 1) h
        refine ⟨(m, none) :: fates, ⟨by rw [h1.order]; rfl, h1.world⟩, fun i f hf => ?_, h3⟩
        cases i with
        | zero =>
          simp only [List.getElem?_cons_zero, Option.some.injEq] at hf
          subst hf
          obtain ⟨newest, hn, e⟩ := hback
          exact ⟨newest, hn, k, by rw [← e]; exact hs⟩
        | succ i =>
          obtain ⟨newest, ⟨j, hj, hn⟩, k', hk⟩ := h2 i f (by simpa using hf)
          exact ⟨newest, ⟨j + 1, by omega, by simpa using hn⟩, k', hk⟩
      | integrate x =>
        obtain ⟨fates, h1, h2, h3⟩ := ih (run x w) (k + 1) h
        refine ⟨(m, some x) :: fates, ⟨by rw [h1.order]; rfl, h1.world⟩, fun i f hf => ?_, h3⟩
        cases i with
        | zero =>
          simp only [List.getElem?_cons_zero, Option.some.injEq] at hf
          subst hf
          obtain ⟨newest, hn, e⟩ := hback
          exact ⟨newest, hn, k, by rw [← e]; exact hs⟩
        | succ i =>
          obtain ⟨newest, ⟨j, hj, hn⟩, k', hk⟩ := h2 i f (by simpa using hf)
          exact ⟨newest, ⟨j + 1, by omega, by simpa using hn⟩, k', hk⟩

theorem Outcome.bind_done {α β : Type} {x : Outcome α} {f : α → Outcome β} {b : β} (h : x.bind f = .done b) :
    ∃ a, x = .done a ∧ f a = .done b := by
  cases x with
  | done a => exact ⟨a, rfl, h⟩
  | abort => cases h
  | undefined => cases h

/-- A whole history. -/
theorem runInput_spec {Msg E : Type} (accept : Msg → Outcome (Option M)) (step : E → M → M → Outcome (QueueStep X)) (run : X → W → W)
    (events : List (InputEvent Msg E)) (q q' : List M) (w w' : W) (h : runInput accept step run events q w = .done (q', w')) :
    ∃ (accepted : List (Option M)) (fates : List (M × Option X)),
      List.Forall₂ (fun msg o => accept msg = .done o) (arrivals events) accepted ∧
      Fates (q ++ accepted.flatMap Option.toList) q' fates run w w' ∧
      (∀ (i : Nat) (f : M × Option X), fates[i]? = some f → ∃ newest, (∃ j, i ≤ j ∧ (q ++ accepted.flatMap Option.toList)[j]? = some newest) ∧
        ∃ e, SeenBy events e ∧ step e f.1 newest = .done (match f.2 with | some x => .integrate x | none => .discard)) := by
  induction events generalizing q w with
  | nil =>
    cases h
    exact ⟨[], [], .nil, ⟨by simp, rfl⟩, fun i f hf => (by simp at hf)⟩
  | cons ev es ih =>
    cases ev with
    | arrive msg =>
      obtain ⟨o, ho, h⟩ := Outcome.bind_done h
      obtain ⟨acc, fates, h1, h2, h3⟩ := ih (q ++ o.toList) w h
      refine ⟨o :: acc, fates, .cons ho h1, ⟨?_, h2.world⟩, fun i f hf => ?_⟩
      · rw [← h2.order, List.flatMap_cons, List.append_assoc]
      · obtain ⟨newest, hn, e, ⟨env, k, he, hk⟩, hs⟩ := h3 i f hf
        rw [List.flatMap_cons, ← List.append_assoc]
        exact ⟨newest, hn, e, ⟨env, k, List.mem_cons_of_mem _ he, hk⟩, hs⟩
    | process env =>
      obtain ⟨⟨q1, w1⟩, hd, h⟩ := Outcome.bind_done h
      obtain ⟨f1, a1, a2, -⟩ := drainQueue_spec _ run q q1 w w1 0 hd
      obtain ⟨acc, f2, h1, h2, h3⟩ := ih q1 w1 h
      have hq : q ++ acc.flatMap Option.toList = f1.map Prod.fst ++ (q1 ++ acc.flatMap Option.toList) := by
        rw [a1.order, List.append_assoc]
      refine ⟨acc, f1 ++ f2, h1, ⟨?_, ?_⟩, fun i f hf => ?_⟩
      · rw [hq, h2.order, List.map_append, List.append_assoc]
      · rw [h2.world, a1.world, List.filterMap_append, List.foldl_append]
      · by_cases hi : i < f1.length
        · rw [List.getElem?_append_left hi] at hf
          obtain ⟨newest, ⟨j, hj, hn⟩, k, hk⟩ := a2 i f hf
          refine ⟨newest, ⟨j, hj, ?_⟩, env k, ⟨env, k, List.mem_cons_self, rfl⟩, hk⟩
          rw [List.getElem?_append_left (List.getElem?_eq_some_iff.1 hn).1]
          exact hn
        · rw [List.getElem?_append_right (by omega)] at hf
          obtain ⟨newest, ⟨j, hj, hn⟩, e, ⟨env', k, he, hk⟩, hs⟩ := h3 _ f hf
          refine ⟨newest, ⟨j + f1.length, by omega, ?_⟩, e, ⟨env', k, List.mem_cons_of_mem _ he, hk⟩, hs⟩
          rw [hq, List.getElem?_append_right (by rw [List.length_map]; omega), List.length_map, Nat.add_sub_cancel]
          exact hn

theorem sort_head {sort : List (Q × Nat) → List (Q × Nat)} (hsort : SortsByOffset sort) (c : StampedCloud Q) {t : Nat}
    (h : Cloud.startTime ⟨c.cloud.base, sort c.cloud.points⟩ = .done t) : EarliestTime c t := by
  obtain ⟨hp, hs⟩ := hsort c.cloud.points
  unfold Cloud.startTime at h
  dsimp only at h
  cases hl : sort c.cloud.points with
  | nil => rw [hl] at h; cases h
  | cons p ps =>
    rw [hl] at h hp hs
    cases h
    refine ⟨p, hp.mem_iff.1 List.mem_cons_self, rfl, fun p' hp' => ?_⟩
    rcases List.mem_cons.1 (hp.mem_iff.2 hp') with e | e
    · rw [e]
    · exact (List.pairwise_cons.1 hs).1 p' e

theorem sort_last {sort : List (Q × Nat) → List (Q × Nat)} (hsort : SortsByOffset sort) (c : StampedCloud Q) {t : Nat}
    (h : Cloud.endTime ⟨c.cloud.base, sort c.cloud.points⟩ = .done t) : LatestTime c t := by
  obtain ⟨hp, hs⟩ := hsort c.cloud.points
  unfold Cloud.endTime at h
  dsimp only at h
  cases hl : (sort c.cloud.points).getLast? with
  | none => rw [hl] at h; cases h
  | some p =>
    rw [hl] at h
    cases h
    obtain ⟨ys, hys⟩ := List.getLast?_eq_some_iff.1 hl
    refine ⟨p, hp.mem_iff.1 (List.mem_of_getLast? hl), rfl, fun p' hp' => ?_⟩
    have := hp.mem_iff.2 hp'
    rw [hys] at this hs
    rcases List.mem_append.1 this with e | e
    · exact (List.pairwise_append.1 hs).2.2 p' e p (by simp)
    · rw [List.mem_singleton.1 e]

/-! ## Properties -/

/-- Specification: the cloud that a well-formed message stands for: its frame (or the configured one), its stamp moved by the configured offset, and
its points; points keep their time offsets only if motion is undistorted and the message carries them. -/
def CloudOf (c : CloudInputConfig) (msg : CloudMsg Q) (s : StampedCloud Q) : Prop :=
  s.frame = (if c.sensorFrameId = "" then msg.frame else c.sensorFrameId) ∧
  (msg.livox = false → (s.cloud.base : Int) = msg.stamp + c.timeOffset) ∧
  (msg.livox = true → 0 ≤ (msg.stamp : Int) + c.timeOffset → (msg.stamp : Int) + c.timeOffset < 2 ^ 64 →
    (s.cloud.base : Int) = msg.stamp + c.timeOffset) ∧
  s.cloud.points.map Prod.fst = msg.points.map Prod.fst ∧
  (s.cloud.points = msg.points ∨
    (∀ p ∈ s.cloud.points, p.2 = 0) ∧ msg.livox = false ∧ ¬(c.undistortMotion = true ∧ c.ouster = true ∧ "t" ∈ msg.fields))

/-- C68 (messages): a message is queued as the cloud it stands for. It is not queued only if it is empty or its fields are not `x`, `y`, `z` in this order;
nothing else is dropped on arrival. -/
theorem C68_accepted (c : CloudInputConfig) (msg : CloudMsg Q) (o : Option (StampedCloud Q)) (h : acceptCloud c msg = .done o) :
    match o with
    | some s => CloudOf c msg s ∧ s.cloud.points ≠ []
    | none => msg.points = [] ∨ msg.livox = false ∧ ∀ pre post, msg.fields ≠ pre ++ "x" :: "y" :: "z" :: post ∨ "x" ∈ pre := by
  unfold acceptCloud at h
  by_cases h0 : msg.points = []
  · rw [if_pos h0] at h; cases h; exact Or.inl h0
  rw [if_neg h0] at h
  by_cases hl : msg.livox = true
  · rw [if_pos hl] at h
    by_cases hr : -2 ^ 31 ≤ c.timeOffset ∧ c.timeOffset < 2 ^ 31
    · rw [if_pos hr] at h
      cases h
      refine ⟨⟨rfl, (fun e => by rw [hl] at e; cases e), fun _ h1 h2 => ?_, rfl, Or.inl rfl⟩, h0⟩
      dsimp only
      rw [Int.emod_eq_of_lt h1 h2, Int.toNat_of_nonneg h1]
    · rw [if_neg hr] at h; cases h
  rw [if_neg hl] at h
  have hl' : msg.livox = false := by simpa using hl
  -- the fields after the first "x"
  have hdrop : ∀ pre post, msg.fields = pre ++ "x" :: "y" :: "z" :: post → "x" ∉ pre →
      msg.fields.dropWhile (· != "x") = "x" :: "y" :: "z" :: post := by
    intro pre post e hx
    rw [e, List.dropWhile_append_of_pos (fun a ha => by
      rw [bne_iff_ne]; rintro rfl; exact hx ha)]
    rfl
  have hnone : (∀ post, msg.fields.dropWhile (· != "x") ≠ "x" :: "y" :: "z" :: post) →
      msg.points = [] ∨ msg.livox = false ∧ ∀ pre post, msg.fields ≠ pre ++ "x" :: "y" :: "z" :: post ∨ "x" ∈ pre := by
    intro hn
    refine Or.inr ⟨hl', fun pre post => ?_⟩
    by_contra hc
    rw [not_or, not_not] at hc
    exact hn post (hdrop pre post hc.1 hc.2)
  generalize hd : msg.fields.dropWhile (· != "x") = d at h hnone
  match d, h with
  | [], h => cases h; exact hnone (fun post e => by cases e)
  | [_], h => cases h
  | x :: y :: rest, h =>
    by_cases hy : y ≠ "y"
    · simp only [if_pos hy] at h
      cases h
      exact hnone (fun post e => hy (by cases e; rfl))
    · simp only [if_neg hy] at h
      match rest, h with
      | [], h => cases h
      | z :: rest, h =>
        by_cases hz : z ≠ "z"
        · simp only [if_pos hz] at h
          cases h
          exact hnone (fun post e => hz (by cases e; rfl))
        · simp only [if_neg hz] at h
          obtain ⟨base, hb, h⟩ := Outcome.bind_done h
          cases h
          have hbase : (base : Int) = msg.stamp + c.timeOffset := by
            unfold addRosDuration at hb
            split at hb
            · next hr => cases hb; exact Int.toNat_of_nonneg hr.1
            · cases hb
          by_cases hu : c.undistortMotion = true ∧ c.ouster = true ∧ "t" ∈ msg.fields
          · simp only [if_pos hu]
            exact ⟨⟨rfl, fun _ => hbase, fun e => absurd e hl, rfl, Or.inl rfl⟩, h0⟩
          · simp only [if_neg hu]
            refine ⟨⟨rfl, fun _ => hbase, fun e => absurd e hl, by simp [Function.comp_def], Or.inr ⟨fun p hp => ?_, hl', hu⟩⟩, ?_⟩
            · obtain ⟨p', -, e⟩ := List.mem_map.1 hp
              rw [← e]
            · simpa using h0

/-- C68 (clouds without motion undistortion). In every history, for every pipeline: every queued cloud is integrated at most once and in the order of arrival; its pose
is the one TF had for its frame at its own time stamp, its points are those of the message; and a cloud is given up only if, at that
moment, the newest queued cloud ends more than `max_wait_for_pose` after it began (in the arithmetic of unsigned 64-bit nanoseconds). -/
theorem C68_clouds_partial (c : CloudInputConfig) (hc : c.undistortMotion = false) (ops : Transforms P Q) (sort : List (Q × Nat) → List (Q × Nat))
    (hsort : SortsByOffset sort) (run : P × List Q → W → W) (events : List (InputEvent (CloudMsg Q) (Tf P))) (w w' : W)
    (left : List (StampedCloud Q)) (h : runCloudInput c ops sort run events w = .done (left, w')) :
    ∃ (accepted : List (Option (StampedCloud Q))) (fates : List (StampedCloud Q × Option (P × List Q))),
      List.Forall₂ (fun msg o => acceptCloud c msg = .done o) (arrivals events) accepted ∧
      Fates (accepted.flatMap Option.toList) left fates run w w' ∧
      (∀ cloud pose points, (cloud, some (pose, points)) ∈ fates → points.Perm (cloud.cloud.points.map Prod.fst) ∧
        ∃ tf, SeenBy events tf ∧ tf (sanitizeFrameId cloud.frame) (rosTimeOf cloud.cloud.base) = some pose) ∧
      (∀ (i : Nat) (cloud : StampedCloud Q), fates[i]? = some (cloud, none) →
        ∃ (j : Nat) (newest : StampedCloud Q) (start stop : Nat), i ≤ j ∧ (accepted.flatMap Option.toList)[j]? = some newest ∧ EarliestTime cloud start ∧ LatestTime newest stop ∧
          c.maxWaitForPose < (((stop + 2 ^ 64 - start) % 2 ^ 64 : Nat) : ℚ) / 10 ^ 9) := by
  obtain ⟨acc, fates, h1, h2, h3⟩ := runInput_spec _ _ run events [] left w w' h
  simp only [List.nil_append] at h2 h3
  have hstep : ∀ tf (o n : StampedCloud Q) s, cloudStep c ops sort tf o n = .done s →
      ∃ start stop, EarliestTime o start ∧ LatestTime n stop ∧
        (c.maxWaitForPose < (((stop + 2 ^ 64 - start) % 2 ^ 64 : Nat) : ℚ) / 10 ^ 9 ∧ s = .discard ∨
        ¬c.maxWaitForPose < (((stop + 2 ^ 64 - start) % 2 ^ 64 : Nat) : ℚ) / 10 ^ 9 ∧
          s = match tf (sanitizeFrameId o.frame) (rosTimeOf o.cloud.base) with
            | none => .wait
            | some T => .integrate (T, (sort o.cloud.points).map Prod.fst)) := by
    intro tf o n s hs
    unfold cloudStep at hs
    obtain ⟨stop, e1, hs⟩ := Outcome.bind_done hs
    obtain ⟨start, e2, hs⟩ := Outcome.bind_done hs
    refine ⟨start, stop, sort_head hsort o e2, sort_last hsort n e1, ?_⟩
    by_cases hw : c.maxWaitForPose < (((stop + 2 ^ 64 - start) % 2 ^ 64 : Nat) : ℚ) / 10 ^ 9
    · rw [if_pos (show c.maxWaitForPose < nanoSecondsToSeconds (subTime stop start) from hw)] at hs
      cases hs
      exact Or.inl ⟨hw, rfl⟩
    · rw [if_neg (show ¬c.maxWaitForPose < nanoSecondsToSeconds (subTime stop start) from hw), hc] at hs
      refine Or.inr ⟨hw, ?_⟩
      unfold Tf.lookup at hs
      cases htf : tf (sanitizeFrameId o.frame) (rosTimeOf o.cloud.base) with
      | none => rw [htf] at hs; cases hs; rfl
      | some T => rw [htf] at hs; cases hs; rfl
  refine ⟨acc, fates, h1, h2, fun cloud pose points hf => ?_, fun i cloud hf => ?_⟩
  · obtain ⟨i, hi⟩ := List.mem_iff_getElem?.1 hf
    obtain ⟨newest, -, tf, hseen, hs⟩ := h3 i _ hi
    obtain ⟨start, stop, -, -, ⟨-, e⟩ | ⟨-, e⟩⟩ := hstep tf cloud newest _ hs
    · cases e
    · cases htf : tf (sanitizeFrameId cloud.frame) (rosTimeOf cloud.cloud.base) with
      | none => rw [htf] at e; cases e
      | some T =>
        rw [htf] at e
        cases e
        exact ⟨(hsort cloud.cloud.points).1.map _, tf, hseen, htf⟩
  · obtain ⟨newest, ⟨j, hj, hn⟩, tf, hseen, hs⟩ := h3 i _ hf
    obtain ⟨start, stop, e1, e2, ⟨e3, -⟩ | ⟨-, e⟩⟩ := hstep tf cloud newest _ hs
    · exact ⟨j, newest, start, stop, hj, hn, e1, e2, e3⟩
    · cases htf : tf (sanitizeFrameId cloud.frame) (rosTimeOf cloud.cloud.base) <;> rw [htf] at e <;> cases e

/-- C68 (undistorted clouds): with motion undistortion the order is the same and what is integrated is the undistorted cloud (see C55). A cloud is also
given up as soon as the transform shortly before its first point (or one in between) is missing. -/
theorem C68_undistorted_clouds_partial (c : CloudInputConfig) (hc : c.undistortMotion = true) (ops : Transforms P Q)
    (sort : List (Q × Nat) → List (Q × Nat)) (hsort : SortsByOffset sort) (run : P × List Q → W → W)
    (events : List (InputEvent (CloudMsg Q) (Tf P))) (w w' : W) (left : List (StampedCloud Q))
    (h : runCloudInput c ops sort run events w = .done (left, w')) :
    ∃ (accepted : List (Option (StampedCloud Q))) (fates : List (StampedCloud Q × Option (P × List Q))),
      List.Forall₂ (fun msg o => acceptCloud c msg = .done o) (arrivals events) accepted ∧
      Fates (accepted.flatMap Option.toList) left fates run w w' ∧
      (∀ cloud x, (cloud, some x) ∈ fates → ∃ tf, SeenBy events tf ∧
        undistortPointcloud ops sort (tf.lookup cloud.frame) c.intervals cloud.cloud = .done (.success x)) ∧
      (∀ (i : Nat) (cloud : StampedCloud Q), fates[i]? = some (cloud, none) →
        (∃ (j : Nat) (newest : StampedCloud Q) (start stop : Nat), i ≤ j ∧ (accepted.flatMap Option.toList)[j]? = some newest ∧ EarliestTime cloud start ∧ LatestTime newest stop ∧
          c.maxWaitForPose < (((stop + 2 ^ 64 - start) % 2 ^ 64 : Nat) : ℚ) / 10 ^ 9) ∨
        ∃ tf, SeenBy events tf ∧
          (undistortPointcloud ops sort (tf.lookup cloud.frame) c.intervals cloud.cloud = .done .startTimeNotInTfBuffer ∨
            undistortPointcloud ops sort (tf.lookup cloud.frame) c.intervals cloud.cloud = .done .intermediateTimeNotInTfBuffer)) := by
  obtain ⟨acc, fates, h1, h2, h3⟩ := runInput_spec _ _ run events [] left w w' h
  simp only [List.nil_append] at h2 h3
  have hstep : ∀ tf (o n : StampedCloud Q) s, cloudStep c ops sort tf o n = .done s →
      (∃ start stop, EarliestTime o start ∧ LatestTime n stop ∧
        c.maxWaitForPose < (((stop + 2 ^ 64 - start) % 2 ^ 64 : Nat) : ℚ) / 10 ^ 9 ∧ s = .discard) ∨
      ∃ r, undistortPointcloud ops sort (tf.lookup o.frame) c.intervals o.cloud = .done r ∧
        s = match r with
          | .success x => .integrate x
          | .endTimeNotInTfBuffer => .wait
          | .startTimeNotInTfBuffer => .discard
          | .intermediateTimeNotInTfBuffer => .discard := by
    intro tf o n s hs
    unfold cloudStep at hs
    obtain ⟨stop, e1, hs⟩ := Outcome.bind_done hs
    obtain ⟨start, e2, hs⟩ := Outcome.bind_done hs
    by_cases hw : c.maxWaitForPose < (((stop + 2 ^ 64 - start) % 2 ^ 64 : Nat) : ℚ) / 10 ^ 9
    · rw [if_pos (show c.maxWaitForPose < nanoSecondsToSeconds (subTime stop start) from hw)] at hs
      cases hs
      exact Or.inl ⟨start, stop, sort_head hsort o e2, sort_last hsort n e1, hw, rfl⟩
    · rw [if_neg (show ¬c.maxWaitForPose < nanoSecondsToSeconds (subTime stop start) from hw), if_pos hc] at hs
      obtain ⟨r, hr, hs⟩ := Outcome.bind_done hs
      refine Or.inr ⟨r, hr, ?_⟩
      cases r <;> (cases hs; rfl)
  refine ⟨acc, fates, h1, h2, fun cloud x hf => ?_, fun i cloud hf => ?_⟩
  · obtain ⟨i, hi⟩ := List.mem_iff_getElem?.1 hf
    obtain ⟨newest, -, tf, hseen, hs⟩ := h3 i _ hi
    rcases hstep tf cloud newest _ hs with ⟨start, stop, -, -, -, e⟩ | ⟨r, hr, e⟩
    · cases e
    · cases r <;> cases e
      exact ⟨tf, hseen, hr⟩
  · obtain ⟨newest, ⟨j, hj, hn⟩, tf, hseen, hs⟩ := h3 i _ hf
    rcases hstep tf cloud newest _ hs with ⟨start, stop, e1, e2, e3, -⟩ | ⟨r, hr, e⟩
    · exact Or.inl ⟨j, newest, start, stop, hj, hn, e1, e2, e3⟩
    · refine Or.inr ⟨tf, hseen, ?_⟩
      cases r <;> cases e
      · exact Or.inl hr
      · exact Or.inr hr

/-- C68 (depth images). In every history, for every pipeline: every image is integrated at most once and in the order of arrival, with the pose TF had for
its frame at its stamp plus the configured offset; it is given up only if TF does not have that pose while an image at least `max_wait_for_pose` newer
has arrived. -/
theorem C68_images {D Y : Type} (c : DepthInputConfig) (convert : D → Option Y) (run : P × Y → W → W)
    (events : List (InputEvent (DepthMsg D) (Tf P))) (w w' : W) (left : List (DepthMsg D))
    (h : runDepthInput c convert run events w = .done (left, w')) :
    ∃ fates : List (DepthMsg D × Option (P × Y)),
      Fates (arrivals events) left fates run w w' ∧
      (∀ image pose y, (image, some (pose, y)) ∈ fates → convert image.data = some y ∧
        ∃ (tf : Tf P) (stamp : Nat), SeenBy events tf ∧ (stamp : Int) = image.stamp + c.timeOffset ∧
          tf (sanitizeFrameId (if c.sensorFrameId = "" then image.frame else c.sensorFrameId)) stamp = some pose) ∧
      (∀ (i : Nat) (image : DepthMsg D), fates[i]? = some (image, none) →
        (∃ (tf : Tf P) (stamp : Nat), SeenBy events tf ∧ (stamp : Int) = image.stamp + c.timeOffset ∧
          tf (sanitizeFrameId (if c.sensorFrameId = "" then image.frame else c.sensorFrameId)) stamp = none) ∧
        ∃ (j : Nat) (newest : DepthMsg D), i ≤ j ∧ (arrivals events)[j]? = some newest ∧ c.maxWaitForPose * 10 ^ 9 ≤ (newest.stamp : ℚ) - image.stamp) := by
  obtain ⟨acc, fates, h1, h2, h3⟩ := runInput_spec _ _ run events [] left w w' h
  simp only [List.nil_append] at h2 h3
  have hacc : acc.flatMap Option.toList = arrivals events := by
    clear h2 h3
    generalize arrivals events = l at h1
    induction h1 with
    | nil => rfl
    | cons e _ ih => cases e; rw [List.flatMap_cons, ih]; rfl
  rw [hacc] at h2 h3
  have hstamp : ∀ (a : Nat) (o : Int) s, addRosDuration a o = .done s → (s : Int) = a + o := by
    intro a o s hs
    unfold addRosDuration at hs
    split at hs
    · next hr => cases hs; exact Int.toNat_of_nonneg hr.1
    · cases hs
  refine ⟨fates, h2, fun image pose y hf => ?_, fun i image hf => ?_⟩
  · obtain ⟨i, hi⟩ := List.mem_iff_getElem?.1 hf
    obtain ⟨newest, -, tf, hseen, hs⟩ := h3 i _ hi
    obtain ⟨stamp, e1, hs⟩ := Outcome.bind_done hs
    cases htf : tf (sanitizeFrameId (if c.sensorFrameId = "" then image.frame else c.sensorFrameId)) stamp with
    | none =>
      rw [htf] at hs
      dsimp only at hs
      split at hs <;> cases hs
    | some T =>
      rw [htf] at hs
      dsimp only at hs
      cases hcv : convert image.data with
      | none => rw [hcv] at hs; cases hs
      | some y' =>
        rw [hcv] at hs
        cases hs
        exact ⟨rfl, tf, stamp, hseen, hstamp _ _ _ e1, htf⟩
  · obtain ⟨newest, ⟨j, hj, hn⟩, tf, hseen, hs⟩ := h3 i _ hf
    obtain ⟨stamp, e1, hs⟩ := Outcome.bind_done hs
    cases htf : tf (sanitizeFrameId (if c.sensorFrameId = "" then image.frame else c.sensorFrameId)) stamp with
    | none =>
      rw [htf] at hs
      dsimp only at hs
      split at hs
      · cases hs
      · next hw =>
        rw [not_lt, le_div_iff₀ (by norm_num)] at hw
        exact ⟨⟨tf, stamp, hseen, hstamp _ _ _ e1, htf⟩, j, newest, hj, hn, hw⟩
    | some T =>
      rw [htf] at hs
      dsimp only at hs
      cases hcv : convert image.data <;> rw [hcv] at hs <;> cases hs

/-- C68 (order of time stamps): if the clouds' stamps do not run backwards, the arithmetic in `C68_clouds_partial` is that of ordinary numbers: a cloud
is given up only if a cloud arrived that ends more than `max_wait_for_pose` after it began. -/
theorem C68_wait (start stop : Nat) (wait : ℚ) (hs : start ≤ stop) (hw : stop < 2 ^ 64) :
    wait < (((stop + 2 ^ 64 - start) % 2 ^ 64 : Nat) : ℚ) / 10 ^ 9 ↔ wait * 10 ^ 9 < (stop : ℚ) - start := by
  rw [show (stop + 2 ^ 64 - start) % 2 ^ 64 = stop - start from subTime_eq hs hw, Nat.cast_sub hs, lt_div_iff₀ (by norm_num)]

/-- C68 (progress): after a call of `processQueue` the queue is empty, or the oldest cloud waits because TF did not have its pose during this call. -/
theorem C68_waiting (c : CloudInputConfig) (hc : c.undistortMotion = false) (ops : Transforms P Q) (sort : List (Q × Nat) → List (Q × Nat))
    (run : P × List Q → W → W) (tf : Nat → Tf P) (q q' : List (StampedCloud Q)) (w w' : W)
    (h : drainQueue (fun k => cloudStep c ops sort (tf k)) run 0 q w = .done (q', w')) :
    q' = [] ∨ ∃ cloud rest k, q' = cloud :: rest ∧ tf k (sanitizeFrameId cloud.frame) (rosTimeOf cloud.cloud.base) = none := by
  obtain ⟨fates, -, -, h3⟩ := drainQueue_spec _ run q q' w w' 0 h
  cases q' with
  | nil => exact Or.inl rfl
  | cons cloud rest =>
    obtain ⟨newest, k, -, hs⟩ := h3 cloud rfl
    refine Or.inr ⟨cloud, rest, k, rfl, ?_⟩
    unfold cloudStep at hs
    obtain ⟨stop, e1, hs⟩ := Outcome.bind_done hs
    obtain ⟨start, e2, hs⟩ := Outcome.bind_done hs
    split at hs
    · cases hs
    · rw [hc] at hs
      unfold Tf.lookup at hs
      cases htf : tf k (sanitizeFrameId cloud.frame) (rosTimeOf cloud.cloud.base) with
      | none => rfl
      | some T => rw [htf] at hs; cases hs

/-- C68 (progress, images): after a call of `processQueue` the queue is empty, or the oldest image could not be converted, or TF did not have its pose during this
call and no image that is `max_wait_for_pose` newer has arrived. -/
theorem C68_images_waiting {D Y : Type} (c : DepthInputConfig) (convert : D → Option Y) (run : P × Y → W → W) (tf : Nat → Tf P)
    (q q' : List (DepthMsg D)) (w w' : W) (h : drainQueue (fun k => depthStep c convert (tf k)) run 0 q w = .done (q', w')) :
    q' = [] ∨ ∃ image rest, q' = image :: rest ∧ (convert image.data = none ∨
      (∃ k stamp, (stamp : Int) = image.stamp + c.timeOffset ∧
        tf k (sanitizeFrameId (if c.sensorFrameId = "" then image.frame else c.sensorFrameId)) stamp.toNat = none) ∧
      ∀ newest, (image :: rest).getLast? = some newest → (newest.stamp : ℚ) - image.stamp < c.maxWaitForPose * 10 ^ 9) := by
  obtain ⟨fates, -, -, h3⟩ := drainQueue_spec _ run q q' w w' 0 h
  cases q' with
  | nil => exact Or.inl rfl
  | cons image rest =>
    obtain ⟨newest, k, hn, hs⟩ := h3 image rfl
    refine Or.inr ⟨image, rest, rfl, ?_⟩
    obtain ⟨stamp, e1, hs⟩ := Outcome.bind_done hs
    cases htf : tf k (sanitizeFrameId (if c.sensorFrameId = "" then image.frame else c.sensorFrameId)) stamp with
    | none =>
      rw [htf] at hs
      dsimp only at hs
      split at hs
      · next hw =>
        rw [div_lt_iff₀ (by norm_num)] at hw
        refine Or.inr ⟨⟨k, (stamp : Int), ?_, htf⟩, fun n' hn' => ?_⟩
        · unfold addRosDuration at e1
          split at e1
          · next hr => cases e1; exact Int.toNat_of_nonneg hr.1
          · cases e1
        · rw [hn] at hn'
          cases hn'
          exact hw
      · cases hs
    | some T =>
      rw [htf] at hs
      dsimp only at hs
      cases hcv : convert image.data with
      | none => exact Or.inl rfl
      | some y => rw [hcv] at hs; cases hs

/-! ## Cases that meet the hypotheses, and violations -/

/-- A cloud message with one point. -/
def onePointMsg (stamp : Nat) (q : ℚ) : CloudMsg ℚ := ⟨false, stamp, "/lidar", ["x", "y", "z", "intensity"], [(q, 0)]⟩

/-- The default settings of a handler for `PointCloud2` messages. -/
def defaultCloudInput : CloudInputConfig := ⟨false, 1, "", 0, false, 100⟩

/-- A sensor that moves 1 per second, whose pose is known up to a time. -/
def knownUntil (limit : Nat) : Nat → Tf ℚ := fun _ frame t => if frame = "lidar" ∧ t ≤ limit then some ((t : ℚ) / 10 ^ 9) else none

/-- The measurements in the order in which they are integrated. -/
def recordRun : ℚ × List ℚ → List (ℚ × List ℚ) → List (ℚ × List ℚ) := fun x w => w ++ [x]

/-- Whether a history ends with this state. -/
def endsWith (r : Outcome (List (StampedCloud ℚ) × List (ℚ × List ℚ))) (left : List Nat) (w : List (ℚ × List ℚ)) : Bool :=
  match r with
  | .done (q, w') => decide (q.map (fun c => c.cloud.base) = left) && decide (w' = w)
  | _ => false

example : endsWith (runCloudInput defaultCloudInput lineTransforms id recordRun
    [.arrive (onePointMsg (10 ^ 9) 7), .arrive (onePointMsg (2 * 10 ^ 9) 8), .process (knownUntil (15 * 10 ^ 8)),
      .arrive (onePointMsg (3 * 10 ^ 9) 9), .process (knownUntil (10 ^ 11))] [])
    [] [(1, [7]), (2, [8]), (3, [9])] = true := by decide +kernel

/-- C68 fails if clouds are processed late: a cloud whose pose is available is dropped because a newer cloud has arrived meanwhile. -/
theorem C68_available_pose_fails :
    endsWith (runCloudInput defaultCloudInput lineTransforms id recordRun
      [.arrive (onePointMsg (10 ^ 9) 7), .arrive (onePointMsg (3 * 10 ^ 9) 8), .process (knownUntil (10 ^ 11))] [])
      [] [(3, [8])] = true := by decide +kernel

/-- C68 fails if clouds arrive out of order: the difference of their times wraps around, and the cloud that was first is dropped although its pose is available and
no time has passed. -/
theorem C68_out_of_order_fails :
    endsWith (runCloudInput defaultCloudInput lineTransforms id recordRun
      [.arrive (onePointMsg (2 * 10 ^ 9) 7), .arrive (onePointMsg (2 * 10 ^ 9 - 1) 8), .process (knownUntil (10 ^ 11))] [])
      [] [((2 * 10 ^ 9 - 1) / 10 ^ 9, [8])] = true := by decide +kernel

/-- C68 fails with motion undistortion: a cloud is dropped at once if TF does not have the pose at its beginning yet. The same cloud would be integrated
if it was processed only when all poses have arrived. -/
theorem C68_late_start_pose_fails :
    let c : CloudInputConfig := ⟨true, 1, "", 0, true, 2⟩
    let msg : CloudMsg ℚ := ⟨false, 10 ^ 9, "lidar", ["x", "y", "z", "t"], [(7, 0), (8, 10 ^ 8)]⟩
    endsWith (runCloudInput c lineTransforms id recordRun [.arrive msg, .process (knownUntil (5 * 10 ^ 8)), .process (knownUntil (10 ^ 11))] []) [] [] = true ∧
    endsWith (runCloudInput c lineTransforms id recordRun [.arrive msg, .process (knownUntil (10 ^ 11))] []) []
      [((11 : ℚ) / 10, [69 / 10, 8])] = true := by
  decide +kernel

/-- C68 fails for messages whose last field is `x` (or `y`, after `x`): the field behind the end is read. -/
theorem C68_last_field_fails (c : CloudInputConfig) (stamp : Nat) (frame : String) (p : Q × Nat) (ps : List (Q × Nat)) :
    acceptCloud c ⟨false, stamp, frame, ["x"], p :: ps⟩ = .undefined ∧ acceptCloud c ⟨false, stamp, frame, ["x", "y"], p :: ps⟩ = .undefined :=
  ⟨rfl, rfl⟩

/-- C68 fails for a Livox sensor with a time offset of more than 2.1 seconds: the conversion of the offset overflows. -/
theorem C68_livox_offset_fails (c : CloudInputConfig) (hc : 2 ^ 31 ≤ c.timeOffset) (stamp : Nat) (frame : String) (fields : List String) (p : Q × Nat)
    (ps : List (Q × Nat)) : acceptCloud c ⟨true, stamp, frame, fields, p :: ps⟩ = .undefined := by
  unfold acceptCloud
  rw [if_neg (by simp), if_pos rfl, if_neg (by omega)]

example : ∃ (tf : Nat → Tf ℚ) (left : List (DepthMsg Nat)), runDepthInput ⟨1, "", 0⟩ (fun d => some d) (fun x w => w ++ [x])
    [.arrive ⟨10 ^ 9, "camera", 5⟩, .process (fun _ _ _ => none), .arrive ⟨2 * 10 ^ 9, "/camera", 6⟩, .process tf] [] = .done (left, [(2, 6)]) ∧
    left = [] :=
  ⟨fun _ frame t => if frame = "camera" ∧ t = 2 * 10 ^ 9 then some 2 else none, [], by decide +kernel, rfl⟩

/-- C68 fails for an image that cannot be converted: it stays at the front of the queue and blocks all later images, whatever arrives and however often
the queue is processed. -/
theorem C68_blocked_fails {D Y : Type} (c : DepthInputConfig) (convert : D → Option Y) (run : P × Y → W → W) (bad : DepthMsg D)
    (hbad : convert bad.data = none) (hstamp : 0 ≤ (bad.stamp : Int) + c.timeOffset ∧ (bad.stamp : Int) + c.timeOffset < 2 ^ 32 * 10 ^ 9)
    (events : List (InputEvent (DepthMsg D) (Tf P))) (htf : ∀ tf, SeenBy events tf → ∀ frame t, (tf frame t).isSome) (w : W) :
    runDepthInput c convert run (.arrive bad :: events) w = .done (bad :: arrivals events, w) := by
  have key : ∀ q, runInput (fun m => .done (some m)) (depthStep c convert) run events (bad :: q) w = .done (bad :: (q ++ arrivals events), w) := by
    induction events with
    | nil => intro q; simp [runInput, arrivals]
    | cons e es ih =>
      intro q
      have ih := ih (fun tf ht => htf tf (by obtain ⟨env, k, h1, h2⟩ := ht; exact ⟨env, k, List.mem_cons_of_mem _ h1, h2⟩))
      cases e with
      | arrive m =>
        have := ih (q ++ [m])
        simp only [runInput, Outcome.bind, Option.toList_some, arrivals, List.cons_append]
        rw [this, List.append_assoc]
        rfl
      | process env =>
        have hstep : ∀ newest, depthStep c convert (env 0) bad newest = .done .wait := by
          intro newest
          unfold depthStep addRosDuration
          rw [if_pos hstamp]
          simp only [Outcome.bind]
          cases h : env 0 (sanitizeFrameId (if c.sensorFrameId = "" then bad.frame else c.sensorFrameId)) ((bad.stamp : Int) + c.timeOffset).toNat with
          | none =>
            have := htf (env 0) ⟨env, 0, List.mem_cons_self, rfl⟩ (sanitizeFrameId (if c.sensorFrameId = "" then bad.frame else c.sensorFrameId))
              ((bad.stamp : Int) + c.timeOffset).toNat
            rw [h] at this; cases this
          | some T => simp only [hbad]
        simp only [runInput, drainQueue, hstep, Outcome.bind, arrivals]
        exact ih q
  simpa [runDepthInput, runInput, Outcome.bind, arrivals] using key []

end Wavemap
