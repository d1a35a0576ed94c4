import Verif.Model.ResourceMonitor
import Mathlib.Tactic.Ring
import Mathlib.Algebra.Order.BigOperators.Group.List
/-!
# C84: the resource monitor reports the time spent in its episodes and the memory in use
-/
namespace Wavemap
open ResourceMonitor

/-! ## Specification -/

/-- The calls of a monitor's user, with the readings of the processor and the wall clock. -/
inductive MonitorCall where
  | start (cpu wall : Timespec)
  | stop (cpu wall : Timespec)
  | reset

/-- The call on the modelled monitor. -/
def MonitorCall.run (s : ResourceMonitor) : MonitorCall → ResourceMonitor
  | .start cpu wall => s.start cpu wall
  | .stop cpu wall => s.stop cpu wall
  | .reset => .create

/-- A clock reading in nanoseconds. -/
def Timespec.ns (t : Timespec) : Int := t.sec * 10 ^ 9 + t.nsec

/-- The completed episodes since the last reset, oldest first, as pairs of the readings `clock` at their start and end, and the start of the running one. An episode lasts
from the first `start` to the next `stop`. -/
def monitored (clock : Timespec × Timespec → Timespec) : Option Int → List (Int × Int) → List MonitorCall → Option Int × List (Int × Int)
  | running, done, [] => (running, done)
  | none, done, .start cpu wall :: h => monitored clock (some (clock (cpu, wall)).ns) done h
  | some t, done, .start _ _ :: h => monitored clock (some t) done h
  | none, done, .stop _ _ :: h => monitored clock none done h
  | some t, done, .stop cpu wall :: h => monitored clock none (done ++ [(t, (clock (cpu, wall)).ns)]) h
  | _, _, .reset :: h => monitored clock none [] h

/-- The durations of episodes. -/
def durations (l : List (Int × Int)) : List Int := l.map fun e => e.2 - e.1

/-- The readings of `clock` never decrease and are between `a` and `b`. -/
def Readings (clock : Timespec × Timespec → Timespec) : Int → List MonitorCall → Int → Prop
  | a, [], b => a ≤ b
  | a, .start cpu wall :: h, b => a ≤ (clock (cpu, wall)).ns ∧ Readings clock (clock (cpu, wall)).ns h b
  | a, .stop cpu wall :: h, b => a ≤ (clock (cpu, wall)).ns ∧ Readings clock (clock (cpu, wall)).ns h b
  | a, .reset :: h, b => Readings clock a h b

/-! ## Times -/

theorem computeDuration_ns (a b : Timespec) : computeDuration a b = b.ns - a.ns := by
  simp only [computeDuration, Timespec.ns]; ring

theorem monitored_run (calls : List MonitorCall) : ∀ (s : ResourceMonitor) (rc rw : Option Int) (dc dw : List (Int × Int)),
    s.running = rc.isSome → s.running = rw.isSome → (∀ t, rc = some t → s.episodeStartCpu.ns = t) → (∀ t, rw = some t → s.episodeStartWall.ns = t) →
    s.totalCpu = (durations dc).sum → s.totalWall = (durations dw).sum → s.lastEpisodeCpu = (durations dc).getLastD 0 → s.lastEpisodeWall = (durations dw).getLastD 0 →
    let s' := calls.foldl MonitorCall.run s
    let c := monitored Prod.fst rc dc calls
    let w := monitored Prod.snd rw dw calls
    s'.totalCpu = (durations c.2).sum ∧ s'.totalWall = (durations w.2).sum ∧ s'.lastEpisodeCpu = (durations c.2).getLastD 0 ∧
      s'.lastEpisodeWall = (durations w.2).getLastD 0 ∧ s'.running = c.1.isSome ∧ s'.running = w.1.isSome := by
  induction calls with
  | nil =>
    intro s rc rw dc dw h1 h2 h3 h4 h5 h6 h7 h8
    cases rc <;> cases rw <;> exact ⟨h5, h6, h7, h8, h1, h2⟩
  | cons call calls ih =>
    intro s rc rw dc dw h1 h2 h3 h4 h5 h6 h7 h8
    cases call with
    | reset =>
      simp only [List.foldl_cons, monitored]
      exact ih .create none none [] [] rfl rfl (by simp) (by simp) rfl rfl rfl rfl
    | start cpu wall =>
      cases rc with
      | none =>
        cases rw with
        | some t => simp_all
        | none =>
          simp only [List.foldl_cons, monitored]
          apply ih <;> simp_all [MonitorCall.run, ResourceMonitor.start]
      | some t =>
        cases rw with
        | none => simp_all
        | some t' =>
          simp only [List.foldl_cons, monitored]
          apply ih <;> simp_all [MonitorCall.run, ResourceMonitor.start]
    | stop cpu wall =>
      cases rc with
      | none =>
        cases rw with
        | some t => simp_all
        | none =>
          simp only [List.foldl_cons, monitored]
          apply ih <;> simp_all [MonitorCall.run, ResourceMonitor.stop]
      | some t =>
        cases rw with
        | none => simp_all
        | some t' =>
          simp only [List.foldl_cons, monitored]
          have hr : s.running = true := h1
          have hs : MonitorCall.run s (.stop cpu wall) = { s with
              running := false, lastEpisodeCpu := cpu.ns - t, lastEpisodeWall := wall.ns - t', totalCpu := s.totalCpu + (cpu.ns - t), totalWall := s.totalWall + (wall.ns - t') } := by
            simp only [MonitorCall.run, ResourceMonitor.stop, hr, computeDuration_ns, h3 t rfl, h4 t' rfl]
            rfl
          rw [hs]
          refine ih _ none none _ _ rfl rfl (by simp) (by simp) ?_ ?_ ?_ ?_
          · simp [durations, h5]
          · simp [durations, h6]
          · simp [durations]
          · simp [durations]

/-- **C84** After any sequence of calls, the total processor and wall clock times are the sums over the completed episodes since the last reset, the last episode's are
those of the latest (zero if there is none), and the monitor runs exactly if an episode was started and not stopped. -/
theorem C84_times (calls : List MonitorCall) :
    let s := calls.foldl MonitorCall.run .create
    let c := monitored Prod.fst none [] calls
    let w := monitored Prod.snd none [] calls
    s.totalCpu = (durations c.2).sum ∧ s.totalWall = (durations w.2).sum ∧ s.lastEpisodeCpu = (durations c.2).getLastD 0 ∧
      s.lastEpisodeWall = (durations w.2).getLastD 0 ∧ s.running = c.1.isSome ∧ s.running = w.1.isSome :=
  monitored_run calls .create none none [] [] rfl rfl (by simp) (by simp) rfl rfl rfl rfl

theorem monitored_span (clock : Timespec × Timespec → Timespec) (calls : List MonitorCall) : ∀ (a0 a b : Int) (r : Option Int) (done : List (Int × Int)),
    a0 ≤ a → Readings clock a calls b → (∀ t, r = some t → (durations done).sum + a0 ≤ t ∧ t ≤ a) → (durations done).sum + a0 ≤ a → (∀ x ∈ durations done, 0 ≤ x) →
    (durations (monitored clock r done calls).2).sum ≤ b - a0 ∧ ∀ x ∈ durations (monitored clock r done calls).2, 0 ≤ x := by
  induction calls with
  | nil =>
    intro a0 a b r done h0 h h1 h2 h3
    have h' : a ≤ b := h
    cases r <;> simp only [monitored] <;> exact ⟨by omega, h3⟩
  | cons call calls ih =>
    intro a0 a b r done h0 h h1 h2 h3
    cases call with
    | reset =>
      simp only [monitored]
      exact ih a0 a b none [] h0 h (by simp) (by simp [durations]; omega) (by simp [durations])
    | start cpu wall =>
      obtain ⟨ha, h⟩ := h
      cases r with
      | none =>
        simp only [monitored]
        exact ih a0 _ b _ _ (by omega) h (by rintro t ⟨⟩; exact ⟨by omega, le_refl _⟩) (by omega) h3
      | some t =>
        simp only [monitored]
        have := h1 t rfl
        exact ih a0 _ b _ _ (by omega) h (by rintro t ⟨⟩; omega) (by omega) h3
    | stop cpu wall =>
      obtain ⟨ha, h⟩ := h
      cases r with
      | none =>
        simp only [monitored]
        exact ih a0 _ b _ _ (by omega) h (by simp) (by omega) h3
      | some t =>
        simp only [monitored]
        have := h1 t rfl
        refine ih a0 _ b _ _ (by omega) h (by simp) ?_ ?_
        · simp only [durations, List.map_append, List.map_cons, List.map_nil, List.sum_append, List.sum_cons, List.sum_nil] at this ⊢; omega
        · intro x hx
          simp only [durations, List.map_append, List.map_cons, List.map_nil, List.mem_append, List.mem_singleton] at hx
          rcases hx with hx | hx
          · exact h3 x hx
          · omega

/-- **C84** If the clocks never run backwards, no reported time is negative, and the totals are at most the time that passed since the first reading. -/
theorem C84_span (calls : List MonitorCall) (a b a' b' : Int) (hc : Readings Prod.fst a calls b) (hw : Readings Prod.snd a' calls b') :
    let s := calls.foldl MonitorCall.run .create
    (0 ≤ s.totalCpu ∧ s.totalCpu ≤ b - a) ∧ (0 ≤ s.totalWall ∧ s.totalWall ≤ b' - a') ∧ 0 ≤ s.lastEpisodeCpu ∧ 0 ≤ s.lastEpisodeWall := by
  obtain ⟨h1, h2, h3, h4, -, -⟩ := C84_times calls
  obtain ⟨c1, c2⟩ := monitored_span Prod.fst calls a a b none [] (le_refl _) hc (by simp) (by simp [durations]) (by simp [durations])
  obtain ⟨w1, w2⟩ := monitored_span Prod.snd calls a' a' b' none [] (le_refl _) hw (by simp) (by simp [durations]) (by simp [durations])
  have last : ∀ l : List Int, (∀ x ∈ l, 0 ≤ x) → 0 ≤ l.getLastD 0 := by
    intro l
    suffices ∀ d : Int, 0 ≤ d → (∀ x ∈ l, 0 ≤ x) → 0 ≤ l.getLastD d from this 0 (le_refl _)
    induction l with
    | nil => intro d hd _; exact hd
    | cons x l ih => intro d _ h; rw [List.getLastD_cons]; exact ih x (h x (by simp)) (fun y hy => h y (by simp [hy]))
  refine ⟨⟨?_, ?_⟩, ⟨?_, ?_⟩, ?_, ?_⟩
  · rw [h1]; exact List.sum_nonneg c2
  · rw [h1]; exact c1
  · rw [h2]; exact List.sum_nonneg w2
  · rw [h2]; exact w1
  · rw [h3]; exact last _ c2
  · rw [h4]; exact last _ w2

/-- Episodes across a change of the second, with calls that have no effect. -/
example : let calls := [MonitorCall.stop ⟨0, 5⟩ ⟨7, 0⟩, .start ⟨1, 999999999⟩ ⟨10, 0⟩, .start ⟨2, 0⟩ ⟨11, 0⟩, .stop ⟨2, 4⟩ ⟨12, 1⟩, .start ⟨3, 0⟩ ⟨13, 0⟩, .stop ⟨3, 1⟩ ⟨13, 0⟩]
    let s := calls.foldl MonitorCall.run .create
    s.totalCpu = 6 ∧ s.lastEpisodeCpu = 1 ∧ s.totalWall = 2000000001 ∧ s.lastEpisodeWall = 0 ∧ Readings Prod.fst 5 calls (3 * 10 ^ 9 + 1) := by
  refine ⟨?_, ?_, ?_, ?_, ?_⟩ <;> first | decide +kernel | simp [Readings, Timespec.ns]

/-! ## Memory use -/

/-- The contents of a text file: complete lines, and what follows the last line break. -/
def textOf (lines : List (List Char)) (tail : List Char) : List Char := (lines.map (· ++ ['\n'])).flatten ++ tail

theorem takeWhile_line (l rest : List Char) (h : '\n' ∉ l) : (l ++ '\n' :: rest).takeWhile (· != '\n') = l ∧ (l ++ '\n' :: rest).dropWhile (· != '\n') = '\n' :: rest := by
  induction l with
  | nil => simp
  | cons c l ih =>
    have hc : c ≠ '\n' := fun e => h (by simp [e])
    have := ih (fun e => h (by simp [e]))
    simp [hc, this.1, this.2]

theorem getline_line (l rest : List Char) (h : '\n' ∉ l) : getline (l ++ '\n' :: rest) = some (l, rest, false) := by
  unfold getline
  rw [if_neg (by cases l <;> simp), (takeWhile_line l rest h).1, (takeWhile_line l rest h).2]

theorem getline_tail (t : List Char) (h : '\n' ∉ t) (h' : t ≠ []) : getline t = some (t, [], true) := by
  unfold getline
  rw [if_neg (by simpa using h')]
  have : t.dropWhile (· != '\n') = [] := by
    clear h'
    induction t with
    | nil => rfl
    | cons c t ih =>
      have hc : c ≠ '\n' := fun e => h (by simp [e])
      have := ih (fun e => h (by simp [e]))
      simp [hc, this]
  rw [this]

/-- The line that the loop stops at is the first complete one that begins with `VmRSS`. -/
theorem findLine_text (lines : List (List Char)) : ∀ (tail line : List Char) (fuel : Nat), (∀ l ∈ lines, '\n' ∉ l) → '\n' ∉ tail → lines.length < fuel →
    (tail ≠ [] → lines.length + 1 < fuel) →
    match lines.find? ("VmRSS".toList.isPrefixOf ·) with
    | some l => findLine fuel (textOf lines tail) false line = (l, false)
    | none => (findLine fuel (textOf lines tail) false line).2 = true := by
  induction lines with
  | nil =>
    intro tail line fuel _ ht hf hf'
    obtain ⟨fuel, rfl⟩ : ∃ k, fuel = k + 1 := ⟨fuel - 1, by simp at hf; omega⟩
    simp only [List.find?_nil, textOf, List.map_nil, List.flatten_nil, List.nil_append, findLine]
    by_cases h' : tail = []
    · subst h'; rfl
    · rw [getline_tail tail ht h']
      simp only [Bool.false_eq_true, if_false]
      split
      · rfl
      · obtain ⟨fuel, rfl⟩ : ∃ k, fuel = k + 1 := ⟨fuel - 1, by have := hf' h'; simp at this; omega⟩
        rfl
  | cons l lines ih =>
    intro tail line fuel hl ht hf hf'
    obtain ⟨fuel, rfl⟩ : ∃ k, fuel = k + 1 := ⟨fuel - 1, by simp at hf; omega⟩
    have e : textOf (l :: lines) tail = l ++ '\n' :: textOf lines tail := by simp [textOf]
    rw [e]
    simp only [findLine, Bool.false_eq_true, if_false]
    rw [getline_line _ _ (hl l (by simp))]
    dsimp only
    rw [List.find?_cons]
    cases hp : "VmRSS".toList.isPrefixOf l with
    | true => simp
    | false =>
      have := ih tail l fuel (fun l h => hl l (by simp [h])) ht (by simp at hf; omega) (fun h => by have := hf' h; simp at this; omega)
      simp only [Bool.false_eq_true, if_false]
      split <;> rename_i h <;> rw [h] at this
      · exact this
      · exact this

theorem textOf_length (lines : List (List Char)) (tail : List Char) : lines.length + tail.length ≤ (textOf lines tail).length := by
  induction lines with
  | nil => simp [textOf]
  | cons l lines ih =>
    have e : textOf (l :: lines) tail = l ++ '\n' :: textOf lines tail := by simp [textOf]
    rw [e]; simp only [List.length_append, List.length_cons]; omega

theorem ram_text (lines : List (List Char)) (tail : List Char) (hl : ∀ l ∈ lines, '\n' ∉ l) (ht : '\n' ∉ tail) :
    getCurrentRamUsageInKB (some (textOf lines tail)) = (lines.find? ("VmRSS".toList.isPrefixOf ·)).bind parseLine := by
  have hlen := textOf_length lines tail
  have h := findLine_text lines tail [] ((textOf lines tail).length + 1) hl ht (by omega)
    (fun h => by have := List.length_pos_of_ne_nil h; omega)
  unfold getCurrentRamUsageInKB
  dsimp only
  cases hf : lines.find? ("VmRSS".toList.isPrefixOf ·) with
  | some l => rw [hf] at h; dsimp only at h; rw [h]; rfl
  | none => rw [hf] at h; dsimp only at h; rw [h]; rfl

/-- Reading stops where the class of the characters ends. -/
theorem takeWhile_class {p : Char → Bool} (w rest : List Char) (hw : ∀ c ∈ w, p c = true) (hr : ∀ c, rest.head? = some c → p c = false) :
    (w ++ rest).takeWhile p = w ∧ (w ++ rest).dropWhile p = rest := by
  induction w with
  | nil =>
    cases rest with
    | nil => simp
    | cons c rest => simp [hr c rfl]
  | cons c w ih =>
    have := ih (fun c h => hw c (by simp [h]))
    simp [hw c (by simp), this.1, this.2]

theorem takeWhile_mem {p : Char → Bool} {c : Char} {l : List Char} (h : c ∈ l.takeWhile p) : p c = true := by
  induction l with
  | nil => simp at h
  | cons x l ih =>
    rw [List.takeWhile_cons] at h
    split at h
    · rcases List.mem_cons.mp h with rfl | h
      · assumption
      · exact ih h
    · cases h

theorem digit_not_space {c : Char} (h : c.isDigit = true) : isSpace c = false := by
  cases hs : isSpace c with
  | false => rfl
  | true =>
    simp only [isSpace, Bool.or_eq_true, beq_iff_eq] at hs
    rcases hs with ((((hs | hs) | hs) | hs) | hs) | hs <;> subst hs <;> revert h <;> decide

theorem space_not_digit {c : Char} (h : isSpace c = true) : c.isDigit = false := by
  cases hs : c.isDigit with
  | false => rfl
  | true => rw [digit_not_space hs] at h; cases h

theorem readSign_digits (s : List Char) (h : ∀ c, s.head? = some c → c.isDigit = true) : readSign s = (false, s) := by
  unfold readSign
  split
  · exact absurd (h _ rfl) (by decide)
  · exact absurd (h _ rfl) (by decide)
  · rfl

theorem parse_kernel_line (ws1 ws2 : List Char) (n : Nat) (hn : n < 2 ^ 64) (h1 : ws1 ≠ []) (hs1 : ∀ c ∈ ws1, isSpace c = true) (hs2 : ∀ c ∈ ws2, isSpace c = true) :
    parseLine ("VmRSS:".toList ++ ws1 ++ Nat.toDigits 10 n ++ ws2 ++ "kB".toList) = some n := by
  have hd : ∀ c ∈ Nat.toDigits 10 n, c.isDigit = true := fun c h => Nat.isDigit_of_mem_toDigits (by norm_num) (by norm_num) h
  have hne := Nat.toDigits_ne_nil (n := n) (b := 10)
  have hhead : ∀ (rest : List Char) c, (Nat.toDigits 10 n ++ rest).head? = some c → c.isDigit = true := by
    intro rest c h
    cases hx : Nat.toDigits 10 n with
    | nil => exact absurd hx hne
    | cons x xs =>
      rw [hx] at h
      simp only [List.cons_append, List.head?_cons, Option.some.injEq] at h
      subst h
      exact hd x (by rw [hx]; simp)
  have w1 : readWord ("VmRSS:".toList ++ ws1 ++ Nat.toDigits 10 n ++ ws2 ++ "kB".toList) = some ("VmRSS:".toList, ws1 ++ (Nat.toDigits 10 n ++ (ws2 ++ "kB".toList))) := by
    have e : "VmRSS:".toList ++ ws1 ++ Nat.toDigits 10 n ++ ws2 ++ "kB".toList = "VmRSS:".toList ++ (ws1 ++ (Nat.toDigits 10 n ++ (ws2 ++ "kB".toList))) := by simp
    rw [e]
    unfold readWord
    have h0 := takeWhile_class (p := isSpace) [] ("VmRSS:".toList ++ (ws1 ++ (Nat.toDigits 10 n ++ (ws2 ++ "kB".toList)))) (by simp) (by
      intro c hc; have : c = 'V' := by simpa using hc.symm
      subst this; decide)
    rw [List.nil_append] at h0
    dsimp only
    rw [h0.2]
    have h2 := takeWhile_class (p := fun c => !isSpace c) "VmRSS:".toList (ws1 ++ (Nat.toDigits 10 n ++ (ws2 ++ "kB".toList))) (by decide) (by
      intro c hc
      cases ws1 with
      | nil => exact absurd rfl h1
      | cons x ws1 =>
        simp only [List.cons_append, List.head?_cons, Option.some.injEq] at hc
        subst hc
        simp [hs1 x (by simp)])
    rw [h2.1, h2.2]
    rfl
  have w2 : readSize (ws1 ++ (Nat.toDigits 10 n ++ (ws2 ++ "kB".toList))) = some (n, ws2 ++ "kB".toList) := by
    unfold readSize
    have h0 := takeWhile_class (p := isSpace) ws1 (Nat.toDigits 10 n ++ (ws2 ++ "kB".toList)) hs1 (fun c hc => digit_not_space (hhead _ c hc))
    rw [h0.2, readSign_digits _ (hhead _)]
    dsimp only
    have h2 := takeWhile_class (p := Char.isDigit) (Nat.toDigits 10 n) (ws2 ++ "kB".toList) hd (by
      intro c hc
      cases ws2 with
      | nil => have : c = 'k' := by simpa using hc.symm
               subst this; decide
      | cons x ws2 =>
        simp only [List.cons_append, List.head?_cons, Option.some.injEq] at hc
        subst hc
        exact space_not_digit (hs2 x (by simp)))
    rw [h2.1, h2.2, Nat.ofDigitChars_ten_toDigits, if_neg]
    · rfl
    · simp only [Bool.or_eq_true, List.isEmpty_iff, decide_eq_true_eq, not_or]
      exact ⟨hne, by omega⟩
  have w3 : readWord (ws2 ++ "kB".toList) = some ("kB".toList, []) := by
    unfold readWord
    have h0 := takeWhile_class (p := isSpace) ws2 "kB".toList hs2 (by
      intro c hc; have : c = 'k' := by simpa using hc.symm
      subst this; decide)
    dsimp only
    rw [h0.2]
    decide
  unfold parseLine
  rw [w1]
  dsimp only
  rw [w2]
  dsimp only
  rw [w3]
  exact if_pos rfl

/-- **C84** If the file has a line `VmRSS:`, a number and `kB`, separated by white space, and no earlier line begins with `VmRSS`, the number is returned. -/
theorem C84_ram_found (before after : List (List Char)) (tail ws1 ws2 : List Char) (n : Nat) (hn : n < 2 ^ 64) (h1 : ws1 ≠ [])
    (hs1 : ∀ c ∈ ws1, c = ' ' ∨ c = '\t') (hs2 : ∀ c ∈ ws2, c = ' ' ∨ c = '\t')
    (hb : ∀ l ∈ before, '\n' ∉ l ∧ ¬ "VmRSS".toList <+: l) (ha : ∀ l ∈ after, '\n' ∉ l) (ht : '\n' ∉ tail) :
    getCurrentRamUsageInKB (some (textOf (before ++ ("VmRSS:".toList ++ ws1 ++ Nat.toDigits 10 n ++ ws2 ++ "kB".toList) :: after) tail)) = some n := by
  have sp : ∀ c : Char, (c = ' ' ∨ c = '\t') → isSpace c = true ∧ c ≠ '\n' := by
    rintro c (rfl | rfl) <;> decide
  rw [ram_text _ _ _ ht]
  · have hfb : before.find? ("VmRSS".toList.isPrefixOf ·) = none := by
      rw [List.find?_eq_none]
      intro l hl h
      exact (hb l hl).2 (List.isPrefixOf_iff_prefix.mp h)
    rw [List.find?_append, hfb, Option.none_or, List.find?_cons]
    have hp : "VmRSS".toList.isPrefixOf ("VmRSS:".toList ++ ws1 ++ Nat.toDigits 10 n ++ ws2 ++ "kB".toList) = true := by
      rw [List.isPrefixOf_iff_prefix]
      exact ⟨":".toList ++ ws1 ++ Nat.toDigits 10 n ++ ws2 ++ "kB".toList, by simp⟩
    rw [hp]
    exact parse_kernel_line ws1 ws2 n hn h1 (fun c h => (sp c (hs1 c h)).1) (fun c h => (sp c (hs2 c h)).1)
  · intro l hl
    rw [List.mem_append, List.mem_cons] at hl
    rcases hl with hl | rfl | hl
    · exact (hb l hl).1
    · simp only [List.mem_append, not_or]
      refine ⟨⟨⟨⟨by decide, fun h => (sp _ (hs1 _ h)).2 rfl⟩, fun h => ?_⟩, fun h => (sp _ (hs2 _ h)).2 rfl⟩, by decide⟩
      exact absurd (Nat.isDigit_of_mem_toDigits (by norm_num) (by norm_num) h) (by decide)
    · exact ha l hl

/-- **C84** Without a complete line that begins with `VmRSS`, or without the file, nothing is returned. -/
theorem C84_ram_absent (lines : List (List Char)) (tail : List Char) (hl : ∀ l ∈ lines, '\n' ∉ l ∧ ¬ "VmRSS".toList <+: l) (ht : '\n' ∉ tail) :
    getCurrentRamUsageInKB (some (textOf lines tail)) = none ∧ getCurrentRamUsageInKB none = none := by
  refine ⟨?_, by decide +kernel⟩
  rw [ram_text _ _ (fun l h => (hl l h).1) ht]
  have : lines.find? ("VmRSS".toList.isPrefixOf ·) = none := by
    rw [List.find?_eq_none]
    intro l h h'
    exact (hl l h).2 (List.isPrefixOf_iff_prefix.mp h')
  rw [this]
  rfl

/-- **C84** A number that is returned is below `2^64` and is written, in decimal digits, in the first complete line that begins with `VmRSS`, unless it has a minus sign
there. -/
theorem C84_ram_sound (lines : List (List Char)) (tail : List Char) (hl : ∀ l ∈ lines, '\n' ∉ l) (ht : '\n' ∉ tail) (n : Nat)
    (h : getCurrentRamUsageInKB (some (textOf lines tail)) = some n) :
    n < 2 ^ 64 ∧ ∃ l, lines.find? (fun l => decide ("VmRSS".toList <+: l)) = some l ∧
      ∃ a digits b, l = a ++ digits ++ b ∧ digits ≠ [] ∧ (∀ c ∈ digits, c.isDigit = true) ∧ (∀ c, b.head? = some c → c.isDigit = false) ∧
        (a.getLast? ≠ some '-' → n = Nat.ofDigitChars 10 digits 0) := by
  rw [ram_text _ _ hl ht] at h
  obtain ⟨l, hf, hp⟩ := Option.bind_eq_some_iff.mp h
  have hf' : lines.find? (fun l => decide ("VmRSS".toList <+: l)) = some l := by
    rw [← hf]; congr 1; funext l
    rw [Bool.eq_iff_iff, decide_eq_true_eq, List.isPrefixOf_iff_prefix]
  unfold parseLine at hp
  split at hp
  · cases hp
  rename_i w s hw
  split at hp
  · cases hp
  rename_i m s' hs
  split at hp
  · cases hp
  split at hp
  swap
  · cases hp
  cases hp
  -- what was read is what the line consists of
  have hl1 : ∃ a, l = a ++ s := by
    unfold readWord at hw
    dsimp only at hw
    split at hw
    · cases hw
    · simp only [Option.some.injEq, Prod.mk.injEq] at hw
      refine ⟨l.takeWhile isSpace ++ (l.dropWhile isSpace).takeWhile (fun c => !isSpace c), ?_⟩
      rw [← hw.2, List.append_assoc, List.takeWhile_append_dropWhile, List.takeWhile_append_dropWhile]
  obtain ⟨a, rfl⟩ := hl1
  unfold readSize at hs
  dsimp only at hs
  split at hs
  · cases hs
  rename_i hc
  simp only [Bool.or_eq_true, List.isEmpty_iff, decide_eq_true_eq, not_or, not_le] at hc
  simp only [Option.some.injEq, Prod.mk.injEq] at hs
  obtain ⟨e, -⟩ := hs
  have hn : n < 2 ^ 64 := by
    rw [← e]; split
    · exact Nat.mod_lt _ (by norm_num)
    · exact hc.2
  refine ⟨hn, _, hf', ?_⟩
  -- the sign
  have hsign : ∃ sg, s.dropWhile isSpace = sg ++ (readSign (s.dropWhile isSpace)).2 ∧ ((readSign (s.dropWhile isSpace)).1 = true → sg = ['-']) := by
    generalize s.dropWhile isSpace = t
    unfold readSign
    split
    · exact ⟨['-'], rfl, fun _ => rfl⟩
    · exact ⟨['+'], rfl, fun h => by cases h⟩
    · exact ⟨[], rfl, fun h => by cases h⟩
  obtain ⟨sg, hsg, hneg⟩ := hsign
  generalize readSign (s.dropWhile isSpace) = r at *
  refine ⟨a ++ s.takeWhile isSpace ++ sg, r.2.takeWhile Char.isDigit, r.2.dropWhile Char.isDigit, ?_, hc.1, ?_, ?_, ?_⟩
  · rw [List.append_assoc, List.takeWhile_append_dropWhile, List.append_assoc, List.append_assoc, ← hsg, List.takeWhile_append_dropWhile]
  · intro c hc
    exact takeWhile_mem hc
  · intro c hc
    have := List.head?_dropWhile_not Char.isDigit r.2
    rw [hc] at this
    simpa using this
  · intro hl
    rw [← e]
    split
    · rename_i hr
      rw [hneg hr] at hl
      simp at hl
    · rfl

/-- A line that is not ended by a line break is not found, although it is there. -/
theorem C84_ram_last_line_fails : getCurrentRamUsageInKB (some "Name:\tfoo\nVmRSS:\t  1234 kB".toList) = none ∧
    getCurrentRamUsageInKB (some "Name:\tfoo\nVmRSS:\t  1234 kB\n".toList) = some 1234 := by
  constructor <;> decide +kernel

/-- The text of the last theorem has the form that the others are about. -/
example : "Name:\tfoo\nVmRSS:\t  1234 kB\n".toList = textOf (["Name:\tfoo".toList] ++ ("VmRSS:".toList ++ "\t  ".toList ++ Nat.toDigits 10 1234 ++ " ".toList ++ "kB".toList) :: []) [] ∧
    ¬ "VmRSS".toList <+: "Name:\tfoo".toList := by
  constructor <;> decide +kernel

/-- A minus sign is accepted. -/
example : getCurrentRamUsageInKB (some "VmRSS: -1 kB\n".toList) = some (2 ^ 64 - 1) := by decide +kernel

end Wavemap
