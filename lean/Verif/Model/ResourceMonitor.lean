import Mathlib.Tactic.Linarith
/-!
# The resource monitor

Models `library/cpp/include/wavemap/core/utils/profile/resource_monitor.h` and `library/cpp/src/core/utils/profile/resource_monitor.cc` on a platform with `clock_gettime`.
The clocks and the contents of `/proc/self/status` are inputs. Durations are integers (the code counts nanoseconds in 64 bits).
-/
namespace Wavemap

/-- `std::timespec`, as used in resource_monitor.h:146-149. -/
structure Timespec where
  sec : Int
  nsec : Int

/-- `ResourceMonitor` (resource_monitor.h:20-171). Durations in nanoseconds. -/
structure ResourceMonitor where
  running : Bool
  episodeStartCpu : Timespec
  episodeStartWall : Timespec
  lastEpisodeCpu : Int
  lastEpisodeWall : Int
  totalCpu : Int
  totalWall : Int

namespace ResourceMonitor

/-- A new monitor; `reset` (resource_monitor.h:140) assigns it. -/
def create : ResourceMonitor := ⟨false, ⟨0, 0⟩, ⟨0, 0⟩, 0, 0, 0, 0⟩

/-- `computeDuration` (resource_monitor.cc:126-130). -/
def computeDuration (start stop : Timespec) : Int := (stop.sec - start.sec) * 1000000000 + (stop.nsec - start.nsec)

/-- `start` (resource_monitor.cc:18-32). -/
def start (s : ResourceMonitor) (cpu wall : Timespec) : ResourceMonitor :=
  if s.running then s else { s with episodeStartCpu := cpu, episodeStartWall := wall, running := true }

/-- `stop` (resource_monitor.cc:34-57). -/
def stop (s : ResourceMonitor) (cpu wall : Timespec) : ResourceMonitor :=
  if !s.running then s
  else
    let lastCpu := computeDuration s.episodeStartCpu cpu
    let lastWall := computeDuration s.episodeStartWall wall
    { s with
      running := false
      lastEpisodeCpu := lastCpu
      lastEpisodeWall := lastWall
      totalCpu := s.totalCpu + lastCpu
      totalWall := s.totalWall + lastWall }

/-! ## Memory use -/

/-- `std::isspace` in the default locale, which the stream operators skip (used by resource_monitor.cc:76). -/
def isSpace (c : Char) : Bool := c == ' ' || c == '\t' || c == '\n' || c == '\x0b' || c == '\x0c' || c == '\r'

/-- `std::getline` (used in resource_monitor.cc:62): the line, what remains of the file, and whether the end was met while reading it. `none` if there is nothing to read
(the end was met). -/
def getline (s : List Char) : Option (List Char × List Char × Bool) :=
  if s.isEmpty then none
  else
    match s.dropWhile (· != '\n') with
    | [] => some (s, [], true)
    | _ :: rest => some (s.takeWhile (· != '\n'), rest, false)

/-- The loop (resource_monitor.cc:62-66): the line it stops at and `file.eof()`. The second argument is the `eof` bit, with which `std::getline` fails. `fuel` bounds the
number of lines. -/
def findLine : Nat → List Char → Bool → List Char → List Char × Bool
  | 0, _, eof, line => (line, eof)
  | fuel + 1, s, eof, line =>
    if eof then (line, true)
    else
      match getline s with
      | none => (line, true)
      | some (line, rest, eof) => if "VmRSS".toList.isPrefixOf line then (line, eof) else findLine fuel rest eof line

/-- `iss >> word` for a string (resource_monitor.cc:76). -/
def readWord (s : List Char) : Option (List Char × List Char) :=
  let s := s.dropWhile isSpace
  let w := s.takeWhile fun c => !isSpace c
  if w.isEmpty then none else some (w, s.dropWhile fun c => !isSpace c)

/-- The sign that `std::num_get` accepts, also for unsigned numbers (used in resource_monitor.cc:76). -/
def readSign : List Char → Bool × List Char
  | '-' :: s => (true, s)
  | '+' :: s => (false, s)
  | s => (false, s)

/-- `iss >> number` for a `size_t` (resource_monitor.cc:76): decimal digits with an optional sign, failing if the number does not fit; a minus sign negates modulo
`2^64`. -/
def readSize (s : List Char) : Option (Nat × List Char) :=
  let r := readSign (s.dropWhile isSpace)
  let digits := r.2.takeWhile Char.isDigit
  let n := Nat.ofDigitChars 10 digits 0
  if digits.isEmpty || decide (2 ^ 64 ≤ n) then none
  else some (if r.1 then (2 ^ 64 - n) % 2 ^ 64 else n, r.2.dropWhile Char.isDigit)

/-- The rest of `getCurrentRamUsageInKB` (resource_monitor.cc:73-90). -/
def parseLine (line : List Char) : Option Nat :=
  match readWord line with
  | none => none
  | some (_, s) =>
    match readSize s with
    | none => none
    | some (n, s) =>
      match readWord s with
      | none => none
      | some (unit, _) => if unit = "kB".toList then some n else none

/-- `getCurrentRamUsageInKB` (resource_monitor.cc:59-91). `file` is the contents of `/proc/self/status`, `none` if it cannot be opened: then `std::getline` fails at once
without the `eof` bit and the empty line is parsed. -/
def getCurrentRamUsageInKB (file : Option (List Char)) : Option Nat :=
  let r := match file with
    | none => ([], false)
    | some s => findLine (s.length + 1) s false []
  if r.2 then none else parseLine r.1

end ResourceMonitor
end Wavemap
