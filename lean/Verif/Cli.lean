import Verif.Threads

/-!
# The command line program (src/main.rs, src/args.rs, configuration in src/formatter.rs)

A run of the program is described by its trace: the file system operations it performs, what it prints and how it ends.
Killing the process means that only a prefix of the trace happens.

What the operating system decides is a parameter (`Env`): how a write is cut into pieces, whether and where it fails,
whether stdout can be written.  Other processes may change files between the moment the file is read for formatting
(`fs`) and the moment the results are processed (`fs2`).

Not modelled: clap's syntax (only the resulting flags and the `conflicts_with` rule), the TOML syntax (`Env.toml` yields
the key/value pairs), the exact texts of error messages, messages printed by worker threads.
-/

namespace Afmt

/-- File contents. -/
abbrev Bytes := List UInt8

/-- File system. -/
abbrev Fs := Path → Option Bytes

/-- UTF-8 encoding of a Rust string. -/
def encode (s : Str) : Bytes := s.flatMap String.utf8EncodeChar

/-- UTF-8 decoding; `none` if the bytes are not valid UTF-8. -/
def decode (b : Bytes) : Option Str := (b.toByteArray.utf8Decode?).map Array.toList

/-- `fs::read_to_string(..).ok()`. -/
def readText (fs : Fs) (p : Path) : Option Str :=
  match fs p with
  | some b => decode b
  | none => none

/-- What a run does, in order. -/
inductive Io where
  | read (p : Path)
  /-- `open` with `O_TRUNC | O_CREAT` -/
  | truncate (p : Path)
  /-- one `write` system call -/
  | append (p : Path) (data : Bytes)
  | stdout (s : Str)
  | stderr (s : Str)
  | exit (code : Nat)
  /-- the process is killed by a signal (stack overflow) -/
  | abort

/-- Effect on the file system. -/
def Io.apply (fs : Fs) : Io → Fs
  | .truncate p => fun q => if q = p then some [] else fs q
  | .append p d => fun q => if q = p then some ((fs p).getD [] ++ d) else fs q
  | _ => fs

/-- Effect of a trace. -/
def applyAll (fs : Fs) (tr : List Io) : Fs := tr.foldl Io.apply fs

/-- How the operating system carries out one `fs::write`. -/
inductive WriteRun where
  /-- the file cannot be opened -/
  | openFails
  /-- some pieces are written, then an error occurs -/
  | fails (pieces : List Bytes)
  | succeeds (pieces : List Bytes)

/-- A TOML value, as far as the configuration is concerned. -/
inductive TomlVal where
  | int (i : Int)
  | other
  deriving DecidableEq

/-- The environment of the process. -/
structure Env where
  wd : World
  /-- `toml::from_str` up to deserialisation: the key/value pairs of a well-formed document -/
  toml : Str → Option (List (String × TomlVal))
  write : Path → Bytes → WriteRun
  stdoutOk : Bool
  elapsed : Str

/-- `Args` (src/args.rs 3-10). -/
structure Args where
  path : Path
  config : Option Path
  write : Bool
  time : Bool
  check : Bool

/-- `get_args` (src/args.rs 12-86) on the flags given: `--check` conflicts with `--write` (line 52), then clap exits. -/
def getArgs (a : Args) : Option Args := if a.check && a.write then none else some a

/-- `default_max_width` (src/formatter.rs 28-30). -/
def defaultMaxWidth : Nat := 80
/-- `default_indent_size` (src/formatter.rs 32-34). -/
def defaultIndentSize : Nat := 2
/-- `Config::default` (src/formatter.rs 36-43). -/
def Config.dflt : Config := ⟨defaultMaxWidth, defaultIndentSize⟩

/-- Deserialisation of a `u32` field with default (src/formatter.rs 21-25). -/
def u32Field (kvs : List (String × TomlVal)) (key : String) (dflt : Nat) : Option Nat :=
  match kvs.find? (fun kv => kv.1 == key) with
  | none => some dflt
  | some (_, .int i) => if 0 ≤ i ∧ i < 4294967296 then some i.toNat else none
  | some (_, .other) => none

/-- Deserialisation of `Config` (src/formatter.rs 19-26); unknown keys are ignored. -/
def configOf (kvs : List (String × TomlVal)) : Option Config :=
  match u32Field kvs "max_width" defaultMaxWidth with
  | none => none
  | some w => match u32Field kvs "indent_size" defaultIndentSize with
    | none => none
    | some k => some ⟨w, k⟩

/-- `Config::from_file` (src/formatter.rs 53-59). -/
def configFromFile (env : Env) (fs : Fs) (p : Path) : Option Config :=
  match readText fs p with
  | none => none
  | some s => match env.toml s with
    | none => none
    | some kvs => configOf kvs

/-- `Formatter::create_from_config` (src/formatter.rs 90-100): the configuration and the files read. -/
def createFromConfig (env : Env) (fs : Fs) : Option Path → List Io × Option Config
  | some p => ([.read p], configFromFile env fs p)
  | none => ([], some Config.dflt)

/-- How `run` ends. -/
inductive RunEnd where
  | ok
  | err
  /-- a panic on the main thread -/
  | panic
  deriving DecidableEq

/-- `println!`: panics if stdout cannot be written. -/
def say (env : Env) (s : Str) : List Io × Bool := if env.stdoutOk then ([.stdout (s ++ ['\n'])], true) else ([], false)

/-- The system calls of `fs::write`. -/
def writeIo (p : Path) (pieces : List Bytes) : List Io := .truncate p :: pieces.map (.append p)

/-- Message of src/main.rs 40 (without the path). -/
def msgFormatted : Str := "File is already formatted: ".toList
/-- Message of src/main.rs 43. -/
def msgNotFormatted : Str := "File is not correctly formatted: ".toList
/-- Message of src/main.rs 50. -/
def msgWritten : Str := "Formatted content written back to: ".toList
/-- Message of src/main.rs 17. -/
def msgTime : Str := "\n-- Execution time: ".toList
/-- Message of src/main.rs 22. -/
def msgError : Str := "Error: ".toList

/-- The loop over the results in `run` (src/main.rs 32-61). -/
def runLoop (env : Env) (a : Args) (fs : Fs) : List Res → List Io × RunEnd
  | [] => ([], .ok)
  | .error _ :: _ => ([], .err)
  | .ok value :: rs =>
    if a.check then
      match readText fs a.path with
      | none => ([.read a.path], .err)
      | some original =>
        if original = value then
          match say env msgFormatted with
          | (io, true) => (.read a.path :: io, .ok)
          | (io, false) => (.read a.path :: io, .panic)
        else ([.read a.path, .stderr msgNotFormatted], .err)
    else if a.write then
      match env.write a.path (encode value) with
      | .openFails => ([], .err)
      | .fails pieces => (writeIo a.path pieces, .err)
      | .succeeds pieces =>
        match say env msgWritten with
        | (io, false) => (writeIo a.path pieces ++ io, .panic)
        | (io, true) =>
          let r := runLoop env a (applyAll fs (writeIo a.path pieces)) rs
          (writeIo a.path pieces ++ io ++ r.1, r.2)
    else
      match say env value with
      | (io, false) => (io, .panic)
      | (io, true) =>
        let r := runLoop env a fs rs
        (io ++ r.1, r.2)

/-- End of `main` (src/main.rs 13-25): the exit code; with `--time` the duration is printed first. -/
def finishMain (env : Env) (a : Args) : RunEnd → List Io
  | .ok =>
    if a.time then
      match say env (msgTime ++ env.elapsed) with
      | (io, true) => io ++ [.exit 0]
      | (io, false) => io ++ [.exit 101]
    else [.exit 0]
  | .err => [.stderr msgError, .exit 1]
  | .panic => [.exit 101]

/-- `tr` is the trace of a complete run of `afmt` with the given flags (src/main.rs 7-64), for some schedule of the
threads. -/
def Exec (env : Env) (flags : Args) (fs fs2 : Fs) (tr : List Io) : Prop :=
  match getArgs flags with
  | none => tr = [.exit 2]
  | some a =>
    match createFromConfig env fs a.config with
    | (io, none) => tr = io ++ finishMain env a .err
    | (io, some cfg) => ∃ sched s, (Sys.init [a.path]).run env.wd cfg (readText fs) sched = some s ∧
      ((s.aborted = true ∧ tr = io ++ [.read a.path, .abort]) ∨
       (s.finished = true ∧ tr = io ++ .read a.path :: ((runLoop env a fs2 s.got).1 ++
          finishMain env a (runLoop env a fs2 s.got).2)))

end Afmt
