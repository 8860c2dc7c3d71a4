import Verif.Model.Basic
/-!
The log: `esl/data/log.hpp`, `channel.hpp`, `severity.hpp` and `null_ostream.hpp`.

What is written to `buffer_` of a log, and to the console, are lists of characters. The build is a flag: `release` stands for `defined(ESL_RELEASE) && ESL_RELEASE > 0`.
Values are given as the text they print. The outputs of `output_base` that the log is constructed with are not written to by any of these functions.
-/
namespace Esl.Log

/-- severity.hpp:33-42. -/
inductive Severity where
  | trace
  | notice
  | warning
  | errorlog
deriving DecidableEq, Repr

/-- The underlying values, severity.hpp:36-39. -/
def Severity.toNat : Severity → Nat
  | .trace => 0
  | .notice => 1
  | .warning => 2
  | .errorlog => 3

/-- severity.hpp:44-57. -/
def Severity.render : Severity → List Char
  | .trace => ['t', 'r', 'a', 'c', 'e']
  | .notice => ['n', 'o', 't', 'i', 'c', 'e']
  | .warning => ['w', 'a', 'r', 'n', 'i', 'n', 'g']
  | .errorlog => ['e', 'r', 'r', 'o', 'r']

/-- `log::buffer_` (log.hpp:57) and `std::cout`. -/
structure Streams where
  buffer : List Char
  console : List Char
deriving DecidableEq, Repr

/-- `channel` (channel.hpp:44-98): its stream is either the buffer of the log or the null stream. -/
structure Channel where
  level : Severity
  kept : Bool
deriving DecidableEq, Repr

/-- channel.hpp:102-114 `operator<<`, and 146-154 for `std::endl` (with a line break as text): one value, written by one thread. -/
def write (release : Bool) (c : Channel) (s : Streams) (text : List Char) : Streams :=
  ⟨if c.kept then s.buffer ++ text else s.buffer, if release then s.console else s.console ++ text⟩

/-- Several values, `channel << a << b << ...`. -/
def writeAll (release : Bool) (c : Channel) (s : Streams) (texts : List (List Char)) : Streams := texts.foldl (write release c) s

/-- `std::string::rfind`: the last position at which the pattern occurs. -/
def rfind (p : List Char) : List Char → Option Nat
  | [] => if p.isPrefixOf [] then some 0 else none
  | c :: cs =>
    match rfind p cs with
    | some k => some (k + 1)
    | none => if p.isPrefixOf (c :: cs) then some 0 else none

/-- log.hpp:72-77 `root_`. -/
def root : List Char := ['e', 's', 'l', '/']

/-- `std::string::npos`. -/
def npos : Nat := 2 ^ 64 - 1

/-- log.hpp:79-91: the part of the path of a source file that is shown, with the sum on `size_t`. -/
def shown (file : List Char) : List Char :=
  file.drop (match rfind root file with
    | none =>
      let common := u64 (1 + ((rfind ['/'] file).getD npos))
      if npos = common then 0 else common
    | some k => k + root.length)

/-- log.hpp:64-96 `apply_formatting`: the values written before a message. -/
def tag (level : Severity) (file : Option (List Char)) (line : Nat) : List (List Char) :=
  match file with
  | some f => [['('], level.render, [',', ' '], shown f, ['['], Nat.toDigits 10 line, [']'], [')'], [' ']]
  | none => [['('], level.render, [')'], [' ']]

/-- log.hpp:116-134 `get<level_>()`: the channel, and what has been written. -/
def getStatic (release : Bool) (filter level : Severity) (file : Option (List Char)) (line : Nat) (s : Streams) : Channel × Streams :=
  if level.toNat < filter.toNat then (⟨level, false⟩, s)
  else (⟨level, true⟩, writeAll release ⟨level, true⟩ s (tag level file line))

/-- log.hpp:144-150 `get(severity)`. -/
def getDynamic (filter level : Severity) (s : Streams) : Channel × Streams :=
  if level.toNat < filter.toNat then (⟨level, false⟩, s) else (⟨level, true⟩, s)

/-- log.hpp:156-160: the filter of `main_log`. -/
def mainFilter (release : Bool) : Severity := if release then .warning else .trace

/-- A message to a log: with its severity, the source file and line for `get<level>` or no location and the run-time severity of `get(level)`, and the values. -/
inductive Message where
  | static (level : Severity) (file : Option (List Char)) (line : Nat) (texts : List (List Char))
  | dynamic (level : Severity) (texts : List (List Char))
deriving DecidableEq, Repr

/-- A message is logged: `LOG(level) << ...` (log.hpp:163-164). -/
def logMessage (release : Bool) (filter : Severity) (s : Streams) : Message → Streams
  | .static level file line texts => let g := getStatic release filter level file line s; writeAll release g.1 g.2 texts
  | .dynamic level texts => let g := getDynamic filter level s; writeAll release g.1 g.2 texts

/-! ## Threads -/

/-- What a thread inserts into a channel: a value, which is kept if the channel writes to the buffer, or the manipulator `channel::endl` (channel.hpp:132-140). -/
inductive Piece where
  | value (kept : Bool) (text : List Char)
  | channelEndl
deriving DecidableEq, Repr

/-- Threads that use channels of the same log. `todo` has the pieces that each thread still inserts. `holder` is the thread that has locked `mutex_` (channel.hpp:59), with the characters
that it still has to write to the buffer and to the console. -/
structure System where
  todo : List (List Piece)
  holder : Option (Nat × List Char × List Char)
  streams : Streams
deriving DecidableEq, Repr

/-- One step of thread `i`: lock the mutex, write one character, or unlock it; a thread that finds the mutex locked waits. `operator<<` for `channel::endl` locks the mutex (channel.hpp:124) and
calls `endl`, which locks it again (134): undefined behaviour for a `std::mutex`. -/
def stepThread (release : Bool) (s : System) (i : Nat) : Outcome System :=
  match s.holder with
  | none =>
    match s.todo[i]? with
    | none => .ok s
    | some [] => .ok s
    | some (.value kept text :: rest) =>
      .ok { s with todo := s.todo.set i rest, holder := some (i, if kept then text else [], if release then [] else text) }
    | some (.channelEndl :: _) => .ub
  | some (j, c :: b, o) => if i = j then .ok { s with holder := some (j, b, o), streams := ⟨s.streams.buffer ++ [c], s.streams.console⟩ } else .ok s
  | some (j, [], c :: o) => if i = j then .ok { s with holder := some (j, [], o), streams := ⟨s.streams.buffer, s.streams.console ++ [c]⟩ } else .ok s
  | some (j, [], []) => if i = j then .ok { s with holder := none } else .ok s

/-- A schedule: the threads in the order in which they take steps. -/
def runThreads (release : Bool) : System → List Nat → Outcome System
  | s, [] => .ok s
  | s, i :: is => stepThread release s i >>= fun s' => runThreads release s' is

/-- The start. -/
def start (programs : List (List Piece)) : System := ⟨programs, none, ⟨[], []⟩⟩

end Esl.Log
