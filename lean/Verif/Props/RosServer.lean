import Verif.Model.RosServer
import Verif.Props.Io
import Verif.Props.VolumetricOctree
/-!
# C69: the map of the ROS server

Measurements go into the map that the services `reset_map`, `save_map` and `load_map` act on.
-/
namespace Wavemap
namespace MapServer

/-! ## Specification -/

/-- What a history does to the map, if there is a single one: pipeline runs change it, an allowed reset clears it, saving thresholds it. `none` if the history has
a load, or thresholding does not end. -/
def mapAfter (allowReset : Bool) : AnyMap → List Event → Option AnyMap
  | m, [] => some m
  | m, .pipeline f :: es => mapAfter allowReset (f m) es
  | m, .reset :: es => mapAfter allowReset (if allowReset then m.clear else m) es
  | m, .save _ _ _ :: es => m.threshold.bind fun m' => mapAfter allowReset m' es
  | _, .load _ _ _ :: _ => none

/-- The event is a call of `load_map`. -/
def Event.isLoad : Event → Bool
  | .load _ _ _ => true
  | _ => false

/-- The event is a run of the pipeline. -/
def Event.isPipeline : Event → Bool
  | .pipeline _ => true
  | _ => false

/-- The event writes to `path`. -/
def Event.saves (path : String) : Event → Bool
  | .save p _ _ => p == path
  | _ => false

/-- The map the services act on. -/
def served (s : MapServer) : Option AnyMap := s.object s.current

/-- The map measurements are integrated into and operations, e.g. publishing, work on. -/
def integrated (s : MapServer) : Option AnyMap := s.object (some s.pipelineMap)

/-! ## Lemmas -/

/-- The pointers point to objects. -/
def Valid (s : MapServer) : Prop := s.pipelineMap < s.objects.length ∧ ∀ i, s.current = some i → i < s.objects.length

theorem create_valid (m : AnyMap) (files : FileSystem) (allow : Bool) : (create m files allow).Valid :=
  ⟨by simp [create], fun i h => by simp only [create, Option.some.injEq] at h; subst h; simp [create]⟩

theorem change_valid {s : MapServer} (h : s.Valid) (i : Nat) (f : AnyMap → AnyMap) : (s.change i f).Valid := by
  unfold Valid change
  simp only [List.length_modify]
  exact h

theorem modify_same {l : List AnyMap} {i : Nat} {m : AnyMap} (f : AnyMap → AnyMap) (h : l[i]? = some m) : (l.modify i f)[i]? = some (f m) := by
  simp [h]

theorem modify_other {l : List AnyMap} {i j : Nat} (f : AnyMap → AnyMap) (h : i ≠ j) : (l.modify i f)[j]? = l[j]? := by
  rw [List.getElem?_modify]
  simp [h]

/-- All that can happen in a step. -/
theorem step_cases {s s' : MapServer} {e : Event} {r : Bool} (h : s.step e = some (r, s')) :
    (∃ f, e = .pipeline f ∧ r = true ∧ s' = s.change s.pipelineMap f) ∨
    (e = .reset ∧ r = s.allowReset ∧
      ((s.allowReset = false ∧ s' = s) ∨ (s.allowReset = true ∧ s.current = none ∧ s' = s) ∨
        ∃ i, s.allowReset = true ∧ s.current = some i ∧ s' = s.change i AnyMap.clear)) ∨
    (∃ path canOpen room, e = .save path canOpen room ∧
      ((s.current = none ∧ r = false ∧ s' = s) ∨
        ∃ i m m' fs, s.current = some i ∧ s.objects[i]? = some m ∧ m.threshold = some m' ∧ mapToFile s.files path canOpen room m' = some (r, fs) ∧
          s' = { s.change i (fun _ => m') with files := fs })) ∨
    (∃ path canOpen now, e = .load path canOpen now ∧
      ((∃ m, r = true ∧ fileToMap now s.files path canOpen s.served = some (.returned true (some m)) ∧
          s' = { s with objects := s.objects ++ [m], current := some s.objects.length }) ∨
        (r = false ∧ fileToMap now s.files path canOpen s.served = some (.returned false none) ∧ s' = { s with current := none }) ∨
        (∃ m, r = false ∧ fileToMap now s.files path canOpen s.served = some (.returned false (some m)) ∧ s' = s))) := by
  cases e with
  | pipeline f =>
    simp only [step, Option.some.injEq, Prod.mk.injEq] at h
    exact Or.inl ⟨f, rfl, h.1.symm, h.2.symm⟩
  | reset =>
    refine Or.inr (Or.inl ⟨rfl, ?_⟩)
    cases ha : s.allowReset with
    | false =>
      simp only [step, ha, Bool.false_eq_true, if_false, Option.some.injEq, Prod.mk.injEq] at h
      exact ⟨h.1.symm, Or.inl ⟨rfl, h.2.symm⟩⟩
    | true =>
      cases hc : s.current with
      | none =>
        simp only [step, ha, if_true, hc, Option.some.injEq, Prod.mk.injEq] at h
        exact ⟨h.1.symm, Or.inr (Or.inl ⟨rfl, rfl, h.2.symm⟩)⟩
      | some i =>
        simp only [step, ha, if_true, hc, Option.some.injEq, Prod.mk.injEq] at h
        exact ⟨h.1.symm, Or.inr (Or.inr ⟨i, rfl, rfl, h.2.symm⟩)⟩
  | save path canOpen room =>
    refine Or.inr (Or.inr (Or.inl ⟨path, canOpen, room, rfl, ?_⟩))
    cases hc : s.current with
    | none =>
      simp only [step, hc, Option.some.injEq, Prod.mk.injEq] at h
      exact Or.inl ⟨rfl, h.1.symm, h.2.symm⟩
    | some i =>
      cases ho : s.objects[i]? with
      | none => simp [step, hc, ho] at h
      | some m =>
        cases ht : m.threshold with
        | none => simp [step, hc, ho, ht] at h
        | some m' =>
          simp only [step, hc, ho, ht, Option.map_eq_some_iff, Prod.mk.injEq] at h
          obtain ⟨⟨b, fs⟩, h1, rfl, rfl⟩ := h
          exact Or.inr ⟨i, m, m', fs, rfl, ho, ht, h1, rfl⟩
  | load path canOpen now =>
    refine Or.inr (Or.inr (Or.inr ⟨path, canOpen, now, rfl, ?_⟩))
    simp only [step] at h
    unfold served
    cases hf : fileToMap now s.files path canOpen (s.object s.current) with
    | none => rw [hf] at h; cases h
    | some x =>
      rw [hf] at h
      cases x with
      | abort => cases h
      | returned ok m =>
        cases ok <;> cases m <;> simp only [Option.some.injEq, Prod.mk.injEq] at h
        · exact Or.inr (Or.inl ⟨h.1.symm, rfl, h.2.symm⟩)
        · exact Or.inr (Or.inr ⟨_, h.1.symm, rfl, h.2.symm⟩)
        · cases h
        · exact Or.inl ⟨_, h.1.symm, rfl, h.2.symm⟩

theorem step_valid {s s' : MapServer} {e : Event} {r : Bool} (hv : s.Valid) (h : s.step e = some (r, s')) : s'.Valid := by
  rcases step_cases h with ⟨f, -, -, rfl⟩ | ⟨-, -, ⟨-, rfl⟩ | ⟨-, -, rfl⟩ | ⟨i, -, -, rfl⟩⟩ |
    ⟨path, canOpen, room, -, ⟨-, -, rfl⟩ | ⟨i, m, m', fs, -, -, -, -, rfl⟩⟩ | ⟨path, canOpen, now, -, ⟨m, -, -, rfl⟩ | ⟨-, -, rfl⟩ | ⟨m, -, -, rfl⟩⟩
  · exact change_valid hv _ _
  · exact hv
  · exact hv
  · exact change_valid hv _ _
  · exact hv
  · exact change_valid hv _ _
  · refine ⟨?_, fun i hi => ?_⟩
    · simp only [List.length_append, List.length_singleton]; have := hv.1; omega
    · simp only [Option.some.injEq] at hi; subst hi; simp
  · exact ⟨hv.1, fun i hi => by cases hi⟩
  · exact hv

theorem run_cons {s s' : MapServer} {e : Event} {es : List Event} {rs : List Bool} (h : s.run (e :: es) = some (rs, s')) :
    ∃ r rs' s1, s.step e = some (r, s1) ∧ s1.run es = some (rs', s') ∧ rs = r :: rs' := by
  unfold run at h
  split at h
  · cases h
  · next r s1 h1 =>
    rw [Option.map_eq_some_iff] at h
    obtain ⟨⟨a, b⟩, h2, h3⟩ := h
    simp only [Prod.mk.injEq] at h3
    obtain ⟨rfl, rfl⟩ := h3
    exact ⟨r, a, s1, h1, h2, rfl⟩

theorem run_valid {es : List Event} : ∀ {s s' : MapServer} {rs : List Bool}, s.Valid → s.run es = some (rs, s') → s'.Valid := by
  induction es with
  | nil => intro s s' rs hv h; simp only [run, Option.some.injEq, Prod.mk.injEq] at h; rw [← h.2]; exact hv
  | cons e es ih =>
    intro s s' rs hv h
    obtain ⟨r, rs', s1, h1, h2, -⟩ := run_cons h
    exact ih (step_valid hv h1) h2

/-- Without loads, the pointers and the reset permission stay. -/
theorem step_pointers {s s' : MapServer} {e : Event} {r : Bool} (hl : e.isLoad = false) (h : s.step e = some (r, s')) :
    s'.current = s.current ∧ s'.pipelineMap = s.pipelineMap ∧ s'.allowReset = s.allowReset := by
  rcases step_cases h with ⟨f, -, -, rfl⟩ | ⟨-, -, ⟨-, rfl⟩ | ⟨-, -, rfl⟩ | ⟨i, -, -, rfl⟩⟩ |
    ⟨path, canOpen, room, -, ⟨-, -, rfl⟩ | ⟨i, m, m', fs, -, -, -, -, rfl⟩⟩ | ⟨path, canOpen, now, rfl, -⟩
  · exact ⟨rfl, rfl, rfl⟩
  · exact ⟨rfl, rfl, rfl⟩
  · exact ⟨rfl, rfl, rfl⟩
  · exact ⟨rfl, rfl, rfl⟩
  · exact ⟨rfl, rfl, rfl⟩
  · exact ⟨rfl, rfl, rfl⟩
  · cases hl

theorem mapAfter_append (allow : Bool) (es fs : List Event) : ∀ m, mapAfter allow m (es ++ fs) = (mapAfter allow m es).bind fun m' => mapAfter allow m' fs := by
  induction es with
  | nil => intro m; rfl
  | cons e es ih =>
    intro m
    cases e with
    | pipeline f => exact ih _
    | reset => exact ih _
    | save p c r =>
      simp only [List.cons_append, mapAfter]
      cases m.threshold with
      | none => rfl
      | some m' => exact ih m'
    | load p c n => rfl

/-- While both pointers are equal, one map takes all events. -/
theorem run_one_map (es : List Event) (hl : ∀ e ∈ es, e.isLoad = false) : ∀ {s s' : MapServer} {rs : List Bool} {m : AnyMap},
    s.current = some s.pipelineMap → s.objects[s.pipelineMap]? = some m → s.run es = some (rs, s') →
    s'.current = some s'.pipelineMap ∧ s'.integrated = mapAfter s.allowReset m es ∧ s'.allowReset = s.allowReset ∧ s'.integrated ≠ none := by
  induction es with
  | nil =>
    intro s s' rs m hc hm h
    simp only [run, Option.some.injEq, Prod.mk.injEq] at h
    rw [← h.2]
    refine ⟨hc, hm, rfl, ?_⟩
    show s.objects[s.pipelineMap]? ≠ none
    rw [hm]; simp
  | cons e es ih =>
    intro s s' rs m hc hm h
    obtain ⟨r, rs', s1, h1, h2, -⟩ := run_cons h
    have hle : e.isLoad = false := hl e (List.mem_cons_self ..)
    obtain ⟨p1, p2, p3⟩ := step_pointers hle h1
    have key : ∃ m1, s1.objects[s.pipelineMap]? = some m1 ∧ mapAfter s.allowReset m (e :: es) = mapAfter s.allowReset m1 es := by
      rcases step_cases h1 with ⟨f, rfl, -, rfl⟩ | ⟨rfl, -, ⟨ha, rfl⟩ | ⟨ha, hn, rfl⟩ | ⟨i, ha, hi, rfl⟩⟩ |
        ⟨path, canOpen, room, rfl, ⟨hn, -, rfl⟩ | ⟨i, m0, m', fs, hi, hm0, ht, -, rfl⟩⟩ | ⟨path, canOpen, now, rfl, -⟩
      · exact ⟨f m, by simp [change, hm], rfl⟩
      · exact ⟨m, hm, by simp [mapAfter, ha]⟩
      · rw [hc] at hn; cases hn
      · rw [hc, Option.some.injEq] at hi
        subst hi
        exact ⟨m.clear, by simp [change, hm], by simp [mapAfter, ha]⟩
      · rw [hc] at hn; cases hn
      · rw [hc, Option.some.injEq] at hi
        subst hi
        rw [hm, Option.some.injEq] at hm0
        subst hm0
        exact ⟨m', by simp [change, hm], by simp [mapAfter, ht]⟩
      · cases hle
    obtain ⟨m1, hm1, he⟩ := key
    rw [← p2] at hm1
    have := ih (fun e he => hl e (List.mem_cons_of_mem _ he)) (by rw [p1, p2]; exact hc) hm1 h2
    rw [p3] at this
    rw [he]
    exact this

/-- While the pointers differ, the served map sees no pipeline run and the integrated one sees nothing else. -/
theorem run_two_maps (es : List Event) (hl : ∀ e ∈ es, e.isLoad = false) : ∀ {s s' : MapServer} {rs : List Bool} {m p : AnyMap} {i : Nat},
    s.current = some i → i ≠ s.pipelineMap → s.objects[i]? = some m → s.objects[s.pipelineMap]? = some p → s.run es = some (rs, s') →
    s'.served = mapAfter s.allowReset m (es.filter fun e => !e.isPipeline) ∧ s'.served ≠ none ∧
    s'.integrated = mapAfter false p (es.filter Event.isPipeline) ∧ s'.current = some i ∧ s'.pipelineMap = s.pipelineMap := by
  induction es with
  | nil =>
    intro s s' rs m p i hc hne hm hp h
    simp only [run, Option.some.injEq, Prod.mk.injEq] at h
    rw [← h.2]
    have hs : s.served = some m := by unfold served; rw [hc]; exact hm
    exact ⟨hs, by rw [hs]; simp, hp, hc, rfl⟩
  | cons e es ih =>
    intro s s' rs m p i hc hne hm hp h
    obtain ⟨r, rs', s1, h1, h2, -⟩ := run_cons h
    have hle : e.isLoad = false := hl e (List.mem_cons_self ..)
    obtain ⟨p1, p2, p3⟩ := step_pointers hle h1
    have key : ∃ m1 q1, s1.objects[i]? = some m1 ∧ s1.objects[s.pipelineMap]? = some q1 ∧
        mapAfter s.allowReset m ((e :: es).filter fun e => !e.isPipeline) = mapAfter s.allowReset m1 (es.filter fun e => !e.isPipeline) ∧
        mapAfter false p ((e :: es).filter Event.isPipeline) = mapAfter false q1 (es.filter Event.isPipeline) := by
      rcases step_cases h1 with ⟨f, rfl, -, rfl⟩ | ⟨rfl, -, ⟨ha, rfl⟩ | ⟨ha, hn, rfl⟩ | ⟨k, ha, hi, rfl⟩⟩ |
        ⟨path, canOpen, room, rfl, ⟨hn, -, rfl⟩ | ⟨k, m0, m', fs, hi, hm0, ht, -, rfl⟩⟩ | ⟨path, canOpen, now, rfl, -⟩
      · refine ⟨m, f p, ?_, ?_, rfl, rfl⟩
        · show (s.objects.modify _ f)[i]? = some m
          rw [modify_other _ (Ne.symm hne)]; exact hm
        · show (s.objects.modify _ f)[s.pipelineMap]? = some (f p)
          exact modify_same _ hp
      · exact ⟨m, p, hm, hp, by simp [Event.isPipeline, mapAfter, ha], rfl⟩
      · rw [hc] at hn; cases hn
      · rw [hc, Option.some.injEq] at hi
        subst hi
        refine ⟨m.clear, p, ?_, ?_, by simp [Event.isPipeline, mapAfter, ha], rfl⟩
        · show (s.objects.modify _ _)[i]? = some m.clear
          exact modify_same _ hm
        · show (s.objects.modify _ _)[s.pipelineMap]? = some p
          rw [modify_other _ hne]; exact hp
      · rw [hc] at hn; cases hn
      · rw [hc, Option.some.injEq] at hi
        subst hi
        rw [hm, Option.some.injEq] at hm0
        subst hm0
        refine ⟨m', p, ?_, ?_, by simp [Event.isPipeline, mapAfter, ht], rfl⟩
        · show (s.objects.modify _ _)[i]? = some m'
          exact modify_same _ hm
        · show (s.objects.modify _ _)[s.pipelineMap]? = some p
          rw [modify_other _ hne]; exact hp
      · cases hle
    obtain ⟨m1, q1, hm1, hq1, he, hq⟩ := key
    rw [← p2] at hq1
    have := ih (fun e he => hl e (List.mem_cons_of_mem _ he)) (by rw [p1]; exact hc) (by rw [p2]; exact hne) hm1 hq1 h2
    rw [p3] at this
    rw [he, hq]
    exact ⟨this.1, this.2.1, this.2.2.1, this.2.2.2.1, by rw [this.2.2.2.2, p2]⟩

theorem mapToFile_other {fs fs' : FileSystem} {path : String} {canOpen : Bool} {room : Nat} {m : AnyMap} {r : Bool}
    (h : mapToFile fs path canOpen room m = some (r, fs')) {q : String} (hq : q ≠ path) : fs' q = fs q := by
  unfold mapToFile at h
  split at h
  · simp only [Option.some.injEq, Prod.mk.injEq] at h; rw [← h.2]
  · split at h
    · rw [Option.map_eq_some_iff] at h
      obtain ⟨x, -, h2⟩ := h
      simp only [Prod.mk.injEq] at h2
      rw [← h2.2]
      exact if_neg hq
    · simp only [Option.some.injEq, Prod.mk.injEq] at h; rw [← h.2]

theorem run_files (path : String) (es : List Event) (hs : ∀ e ∈ es, e.saves path = false) : ∀ {s s' : MapServer} {rs : List Bool},
    s.run es = some (rs, s') → s'.files path = s.files path := by
  induction es with
  | nil => intro s s' rs h; simp only [run, Option.some.injEq, Prod.mk.injEq] at h; rw [← h.2]
  | cons e es ih =>
    intro s s' rs h
    obtain ⟨r, rs', s1, h1, h2, -⟩ := run_cons h
    rw [ih (fun e he => hs e (List.mem_cons_of_mem _ he)) h2]
    have he := hs e (List.mem_cons_self ..)
    rcases step_cases h1 with ⟨f, rfl, -, rfl⟩ | ⟨rfl, -, ⟨ha, rfl⟩ | ⟨ha, hn, rfl⟩ | ⟨k, ha, hi, rfl⟩⟩ |
      ⟨p, canOpen, room, rfl, ⟨hn, -, rfl⟩ | ⟨k, m0, m', fs, hi, hm0, ht, hf, rfl⟩⟩ | ⟨p, canOpen, now, -, ⟨m, -, -, rfl⟩ | ⟨-, -, rfl⟩ | ⟨m, -, -, rfl⟩⟩
    · rfl
    · rfl
    · rfl
    · rfl
    · rfl
    · refine mapToFile_other hf fun e => ?_
      simp [Event.saves, e] at he
    · rfl
    · rfl
    · rfl

end MapServer

open MapServer Haar Streamable NTree

/-! ## C69 -/

/-- C69, for every history in which `load_map` is not called: measurements are integrated into the map the services act on, and that map is the result of all
pipeline runs, allowed resets and the thresholding of saves, in order. Missing: histories with a load, for which this is false (`C69_loaded_map_fails`). -/
theorem C69_one_map_partial (m : AnyMap) (files : FileSystem) (allow : Bool) (es : List MapServer.Event) (hl : ∀ e ∈ es, e.isLoad = false)
    (rs : List Bool) (s : MapServer) (h : (MapServer.create m files allow).run es = some (rs, s)) :
    ∃ m', s.served = some m' ∧ s.integrated = some m' ∧ MapServer.mapAfter allow m es = some m' := by
  obtain ⟨h1, h2, -, h4⟩ := run_one_map es hl (s := MapServer.create m files allow) (m := m) rfl rfl h
  cases hm : s.integrated with
  | none => exact absurd hm h4
  | some m' =>
    refine ⟨m', ?_, rfl, by rw [← hm, h2]; rfl⟩
    unfold served
    rw [h1]
    exact hm

/-- C69: the services answer as they should: `reset_map` succeeds exactly if it is allowed, then the served map is empty and all other maps and all files are
unchanged; if it is not allowed nothing changes. -/
theorem C69_reset (s s' : MapServer) (r : Bool) (h : s.step .reset = some (r, s')) :
    r = s.allowReset ∧ s'.files = s.files ∧ s'.current = s.current ∧ s'.pipelineMap = s.pipelineMap ∧
    (s.allowReset = true → s'.served = s.served.map AnyMap.clear) ∧ (∀ i, s.current ≠ some i → s'.objects[i]? = s.objects[i]?) ∧
    (s.allowReset = false → s' = s) := by
  rcases step_cases h with ⟨f, he, -⟩ | ⟨-, hr, ⟨ha, rfl⟩ | ⟨ha, hn, rfl⟩ | ⟨k, ha, hi, rfl⟩⟩ | ⟨p, c, room, he, -⟩ | ⟨p, c, now, he, -⟩
  · cases he
  · exact ⟨hr, rfl, rfl, rfl, (fun h' => by rw [ha] at h'; cases h'), fun _ _ => rfl, fun _ => rfl⟩
  · refine ⟨hr, rfl, rfl, rfl, fun _ => ?_, fun _ _ => rfl, fun _ => rfl⟩
    unfold served
    rw [hn]
    rfl
  · refine ⟨hr, rfl, rfl, rfl, fun _ => ?_, fun i hne => ?_, fun h' => by rw [ha] at h'; cases h'⟩
    · show (s.change k _).object s.current = (s.object s.current).map _
      rw [hi]
      show (s.objects.modify k _)[k]? = s.objects[k]?.map _
      simp
    · show (s.objects.modify k _)[i]? = s.objects[i]?
      exact modify_other _ fun e => hne (e ▸ hi)
  · cases he
  · cases he

/-- C69: the cleared map. Every cell of a cleared map has the value of a cell that was never observed. -/
theorem C69_cleared (m : AnyMap) (i : Index 3) :
    m.clear.cell i = (match m with | .hashedBlocks b => b.hash.defaultValue | _ => 0) := by
  cases m with
  | hashedBlocks m => rfl
  | waveletOctree m => exact leaf_value 0 _
  | hashedWavelet m => rfl
  | hashedChunked m => rfl
  | volumetricOctree m => exact VolumetricOctree.clear_get i

/-- C69: a map that was saved successfully is loaded again, at any later time as long as the file is not saved to again, whatever else happens in between: the
load succeeds and the served map then is the saved one, as far as the file format keeps it (`ReloadsAs`, C35 to C37). -/
theorem C69_save_load (s s1 s2 : MapServer) (path : String) (canOpen : Bool) (room : Nat) (hsave : s.step (.save path canOpen room) = some (true, s1))
    (hm : ∀ m, s.served.bind AnyMap.threshold = some m → m.Savable) (es : List MapServer.Event) (hes : ∀ e ∈ es, e.saves path = false) (rs : List Bool)
    (hrun : s1.run es = some (rs, s2)) (now : ℚ) :
    ∃ m m' s3, s.served.bind AnyMap.threshold = some m ∧ s1.served = some m ∧ s2.step (.load path true now) = some (true, s3) ∧ s3.served = some m' ∧ ReloadsAs m m' := by
  rcases step_cases hsave with ⟨f, he, -⟩ | ⟨he, -⟩ | ⟨p, c, r, he, ⟨-, hr, -⟩ | ⟨i, m0, m, fs, hi, hm0, ht, hf, hs1⟩⟩ | ⟨p, c, now, he, -⟩
  · cases he
  · cases he
  · cases hr
  · cases he
    have hserved : s.served.bind AnyMap.threshold = some m := by
      unfold served
      rw [hi]
      show (s.objects[i]?).bind _ = _
      rw [hm0]
      exact ht
    have h1 : s1.served = some m := by
      rw [hs1]
      show (s.change i _).object s.current = _
      rw [hi]
      exact modify_same _ hm0
    have hfile : s2.files path = fs path := by rw [run_files path es hes hrun, hs1]
    obtain ⟨⟨m', hl, hre⟩, -⟩ := C60_successful_save_loads m (hm m hserved) s.files fs path canOpen room hf now s2.served
    have hl' : fileToMap now s2.files path true (s2.object s2.current) = some (.returned true (some m')) := by
      rw [← hl]
      unfold fileToMap
      rw [hfile]
      rfl
    refine ⟨m, m', { s2 with objects := s2.objects ++ [m'], current := some s2.objects.length }, hserved, h1, ?_, ?_, hre⟩
    · simp only [step, hl']
    · show (s2.objects ++ [m'])[s2.objects.length]? = some m'
      simp
  · cases he

/-- C69, for loads that fail: if there is no such file or it cannot be opened, nothing changes. Missing: the file has no map in it (`C69_failed_load_fails`). -/
theorem C69_failed_load_partial (s : MapServer) (hv : s.served ≠ none) (path : String) (canOpen : Bool) (now : ℚ)
    (h : path = "" ∨ s.files path = none ∨ canOpen = false) : s.step (.load path canOpen now) = some (false, s) := by
  have : fileToMap now s.files path canOpen (s.object s.current) = some (.returned false (s.object s.current)) := by
    unfold fileToMap
    split
    · rfl
    · next hp =>
      rcases h with h | h | h
      · exact absurd h hp
      · rw [h]
      · rw [h]; cases s.files path <;> rfl
  cases hs : s.object s.current with
  | none => exact absurd hs hv
  | some m =>
    rw [hs] at this
    simp only [step, hs, this]

/-- C69 fails with loads: from any reachable state, after a successful load none of the later measurements reach the map the services act on, until the next load.
They go into the map from before the load; neither resets nor saves reach that one. -/
theorem C69_loaded_map_fails (m : AnyMap) (files : FileSystem) (allow : Bool) (es1 : List MapServer.Event) (rs1 : List Bool) (s1 : MapServer)
    (h1 : (MapServer.create m files allow).run es1 = some (rs1, s1)) (path : String) (canOpen : Bool) (now : ℚ) (s2 : MapServer)
    (h2 : s1.step (.load path canOpen now) = some (true, s2)) (es : List MapServer.Event) (hl : ∀ e ∈ es, e.isLoad = false) (rs : List Bool) (s3 : MapServer)
    (h3 : s2.run es = some (rs, s3)) :
    ∃ loaded old, s2.served = some loaded ∧ s1.integrated = some old ∧
      s3.served = MapServer.mapAfter s1.allowReset loaded (es.filter fun e => !e.isPipeline) ∧ s3.served ≠ none ∧
      s3.integrated = MapServer.mapAfter false old (es.filter MapServer.Event.isPipeline) := by
  have hv := run_valid (create_valid m files allow) h1
  rcases step_cases h2 with ⟨f, he, -⟩ | ⟨he, -⟩ | ⟨p, c, r, he, -⟩ | ⟨p, c, n, -, ⟨ml, -, hf, rfl⟩ | ⟨hr, -⟩ | ⟨_, hr, -⟩⟩
  · cases he
  · cases he
  · cases he
  · have hold : s1.integrated = some (s1.objects[s1.pipelineMap]'hv.1) := List.getElem?_eq_getElem hv.1
    have hlast : (s1.objects ++ [ml])[s1.objects.length]? = some ml := by simp
    obtain ⟨a, b, c, -⟩ := run_two_maps es hl (s := { s1 with objects := s1.objects ++ [ml], current := some s1.objects.length }) (m := ml) (i := s1.objects.length)
      (p := s1.objects[s1.pipelineMap]'hv.1) rfl (by have := hv.1; show s1.objects.length ≠ s1.pipelineMap; omega) hlast
      (by show (s1.objects ++ [ml])[s1.pipelineMap]? = _; rw [List.getElem?_append_left hv.1]; exact hold) h3
    exact ⟨ml, _, hlast, hold, a, b, c⟩
  · cases hr
  · cases hr

/-- C69 fails for unsuccessful loads: a file of fewer than four bytes (or with an unknown format) takes the map away. From then on saving fails and resetting
reports success without clearing the map measurements go into. -/
theorem C69_failed_load_fails (s : MapServer) (path : String) (hp : path ≠ "") (l : List Byte) (hf : s.files path = some l)
    (hl : l.length < 4 ∨ ∃ id r, (-2147483648 ≤ id ∧ id ≤ 2147483647) ∧ (id ≠ 0 ∧ id ≠ 1 ∧ id ≠ 2) ∧ l = formatBytes id ++ r) (now : ℚ) :
    ∃ s', s.step (.load path true now) = some (false, s') ∧ s'.served = none ∧ s'.integrated = s.integrated ∧
      (∀ q canOpen room, s'.step (.save q canOpen room) = some (false, s')) ∧ s'.step .reset = some (s.allowReset, s') := by
  have hs : ∀ old, streamToMap now ⟨l, true⟩ old = some (.returned false none) := by
    intro old
    rcases hl with hl | ⟨id, r, h1, h2, rfl⟩
    · exact streamToMap_short now hl old
    · exact C38_unknown_format id h1 h2 r now old
  have : fileToMap now s.files path true (s.object s.current) = some (.returned false none) := by
    unfold fileToMap
    rw [if_neg hp, hf]
    exact hs _
  refine ⟨{ s with current := none }, by simp only [step, this], rfl, rfl, fun q c r => rfl, ?_⟩
  unfold step
  cases ha : s.allowReset <;> simp

/-! ## The hypotheses are met -/

/-- A map with one written cell. -/
def writtenOctree : AnyMap := .waveletOctree ((WaveletOctree.create ⟨1 / 8, -2, 4, 3⟩).setCellValue (fun _ => -1) 1)

/-- Adding 2 to a cell. -/
def addTwo : AnyMap → AnyMap
  | .waveletOctree m => .waveletOctree (m.addToCellValue (fun _ => 1) 2)
  | m => m

/-- After saving, a measurement, loading and another measurement the served map has neither measurement; the integrated map has both. A reset then clears only the
served map. -/
theorem C69_measurement_lost_fails :
    (((MapServer.create writtenOctree (fun _ => none) true).run
      [.save "a" true 10000, .pipeline addTwo, .load "a" true 0, .pipeline addTwo]).map fun x =>
        (x.1, x.2.served.map fun m => (m.cell (fun _ => 1), m.cell fun _ => -1), x.2.integrated.map fun m => (m.cell (fun _ => 1), m.cell fun _ => -1))) =
      some ([true, true, true, true], some (0, 1), some (4, 1)) ∧
    (((MapServer.create writtenOctree (fun _ => none) true).run
      [.save "a" true 10000, .pipeline addTwo, .load "a" true 0, .pipeline addTwo, .reset]).map fun x =>
        (x.1, x.2.served.map fun m => (m.cell (fun _ => 1), m.cell fun _ => -1), x.2.integrated.map fun m => (m.cell (fun _ => 1), m.cell fun _ => -1))) =
      some ([true, true, true, true, true], some (0, 0), some (4, 1)) := by
  constructor <;> decide +kernel

/-- The map saved there can be saved, so that `C69_save_load` applies. -/
example (m : AnyMap) (h : (MapServer.create writtenOctree (fun _ => none) true).served.bind AnyMap.threshold = some m) : m.Savable := by
  have : m = .waveletOctree ((WaveletOctree.create ⟨1 / 8, -2, 4, 3⟩).setCellValue (fun _ => -1) 1).threshold := by
    have h' : some (AnyMap.waveletOctree ((WaveletOctree.create ⟨1 / 8, -2, 4, 3⟩).setCellValue (fun _ => -1) 1).threshold) = some m := h
    exact (Option.some.inj h').symm
  subst this
  refine ⟨⟨by decide +kernel, by decide, ?_⟩, isFloatB_sound (by decide +kernel), isFloatB_sound (by decide +kernel),
    isFloatB_sound (by decide +kernel), isFloatB_sound (by decide +kernel), treeFloatB_sound (by decide +kernel)⟩
  rw [← NTree.isNil_false_iff]; decide +kernel

/-- Without the load the served map has the measurements. -/
example : (((MapServer.create writtenOctree (fun _ => none) true).run [.save "a" true 10000, .pipeline addTwo, .save "b" true 3, .pipeline addTwo]).map fun x =>
    (x.1, x.2.served.map fun m => (m.cell (fun _ => 1), m.cell fun _ => -1))) = some ([true, true, false, true], some (4, 1)) := by
  decide +kernel

end Wavemap
