import Verif.Format

/-!
# One thread per file (src/formatter.rs 102-139)

`Formatter::format` as a transition system.  The main thread spawns one worker per file, drops its own sender and
collects from the channel until it is empty and all senders are gone.  Between any two steps of a thread the scheduler
may run any other thread: a schedule is an arbitrary list of labels saying who moves next.

Simplifications: files do not change while `format` runs (`read` is a function); what workers print to stdout is left
out; `tx.send(..)` cannot fail, because the receiver lives until all senders are gone.
-/

namespace Afmt

/-- What is sent over the channel: `Ok(text)` or `Err("Thread panicked")` (src/formatter.rs 126-133). -/
abbrev Res := Except String Str

/-- The message sent for a panic (src/formatter.rs 131). -/
def panicked : Res := .error "Thread panicked"

/-- Paths. -/
abbrev Path := String

/-- Where a worker is: the closure of `thread::spawn` (src/formatter.rs 111-134). -/
inductive WSt where
  /-- spawned, about to call `fs::read_to_string` -/
  | ready (file : Path)
  /-- about to call `format_one` -/
  | loaded (source : Str)
  /-- `catch_unwind` returned, about to send -/
  | computed (r : Res)
  /-- finished, its sender is dropped -/
  | gone

/-- The worker has ended. -/
def WSt.isGone : WSt → Bool
  | .gone => true
  | _ => false

/-- The process. -/
structure Sys where
  /-- files the loop of the main thread has not reached -/
  pending : List Path
  workers : List WSt
  chan : List Res
  /-- `drop(tx)` was executed -/
  dropped : Bool
  /-- results collected by the main thread -/
  got : List Res
  /-- `format` returned `got` -/
  finished : Bool
  /-- a stack overflow killed the process -/
  aborted : Bool

/-- Start of `format`. -/
def Sys.init (files : List Path) : Sys := ⟨files, [], [], false, [], false, false⟩

/-- Effect of one step of a worker. -/
inductive WOut where
  | next (w : WSt)
  | send (r : Res)
  | abort
  | stuck

/-- One step of a worker (src/formatter.rs 112-133).  Its thread locals are fresh.  `catch_unwind` turns every panic into
`Err`, but a stack overflow is not a panic: it aborts the process. -/
def workerStep (wd : World) (cfg : Config) (read : Path → Option Str) : WSt → WOut
  | .ready f => match read f with
    | some s => .next (.loaded s)
    | none => .next (.computed panicked)
  | .loaded s => match (formatOne wd cfg s Tls.fresh).1 with
    | .ok out => .next (.computed (.ok out))
    | .error .stackOverflow => .abort
    | .error _ => .next (.computed panicked)
  | .computed r => .send r
  | .gone => .stuck

/-- Who moves. -/
inductive Label where
  | spawn
  | dropTx
  | work (i : Nat)
  | recv
  | finish
  deriving DecidableEq

/-- One step of the process; `none` if the thread in question cannot move. -/
def Sys.step (wd : World) (cfg : Config) (read : Path → Option Str) (s : Sys) (l : Label) : Option Sys :=
  if s.finished || s.aborted then none
  else match l with
    -- src/formatter.rs 106-111
    | .spawn => match s.pending with
      | f :: fs => some { s with pending := fs, workers := s.workers ++ [.ready f] }
      | [] => none
    -- src/formatter.rs 136
    | .dropTx => if s.pending = [] ∧ s.dropped = false then some { s with dropped := true } else none
    | .work i => match s.workers[i]? with
      | none => none
      | some w => match workerStep wd cfg read w with
        | .next w' => some { s with workers := s.workers.set i w' }
        | .send r => some { s with workers := s.workers.set i .gone, chan := s.chan ++ [r] }
        | .abort => some { s with aborted := true }
        | .stuck => none
    -- src/formatter.rs 138: the iterator yields the next message
    | .recv => match s.chan with
      | r :: rs => if s.dropped then some { s with chan := rs, got := s.got ++ [r] } else none
      | [] => none
    -- src/formatter.rs 138: the channel is empty and disconnected
    | .finish =>
      if s.dropped = true ∧ s.chan = [] ∧ s.workers.all WSt.isGone = true then some { s with finished := true } else none

/-- Run a schedule. -/
def Sys.run (wd : World) (cfg : Config) (read : Path → Option Str) : Sys → List Label → Option Sys
  | s, [] => some s
  | s, l :: ls => match s.step wd cfg read l with
    | some s' => s'.run wd cfg read ls
    | none => none

end Afmt
