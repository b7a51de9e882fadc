import Verif.Model.LogEntry
/-!
# The files that log entries are written to

Models the last part of `do_write_nothrow()`, and how `thread_loop()` and `synchronize()` call it (`poseidon/src/static/logger.cpp`).  The operating system decides which files can be opened and how
many bytes of a write are accepted; it may decide otherwise every time.  Assumed: a `unique_posix_fd` does not close the standard streams, as the comments say.  Simplified: the exceptions that are
caught in `do_write_nothrow()`, for lack of memory, are left out.
-/
namespace Verif.LogFiles

/-- What the operating system sees. -/
inductive Ev where
  /-- `open()`, and whether it has succeeded -/
  | open (file : Bytes) (ok : Bool)
  /-- `write()` to an opened file, and the part that has been accepted -/
  | write (file data accepted : Bytes)
deriving DecidableEq, Repr

/-- The operating system. -/
structure Os where
  opens : List Ev → Bytes → Bool
  /-- zero is also an error -/
  accepts : List Ev → Bytes → Bytes → Nat

structure St where
  /-- `io_files`, and whether there is a file descriptor -/
  files : List (Bytes × Bool) := []
  /-- earliest first -/
  trace : List Ev := []
deriving DecidableEq, Repr

/-- `io_files.try_emplace(file)`, and opening the file if it is new.  (logger.cpp:183-192) -/
def emplace (os : Os) (s : St) (file : Bytes) : St :=
  match s.files.lookup file with
  | some _ => s
  | none =>
    if file = b! "/dev/stdout" then { s with files := (file, true) :: s.files }
    else if file = b! "/dev/stderr" then { s with files := (file, true) :: s.files }
    else { s with files := (file, os.opens s.trace file) :: s.files, trace := s.trace ++ [.open file (os.opens s.trace file)] }

/-- One file.  (logger.cpp:182-196) -/
def toFile (os : Os) (text : Bytes) (s : St) (file : Bytes) : St :=
  if file ≠ [] then
    let s := emplace os s file
    if s.files.lookup file = some true then { s with trace := s.trace ++ [.write file text (text.take (os.accepts s.trace file text))] } else s
  else s

/-- A message: the files of its level, and its text. -/
structure Msg where
  files : List Bytes
  text : Bytes
deriving DecidableEq, Repr

/-- (logger.cpp:180-197) -/
def writeAll (os : Os) (s : St) (m : Msg) : St := m.files.foldl (toFile os m.text) s

/-- Messages that are written together, after which all files are closed.  (logger.cpp:292-304, 347-353) -/
def batch (os : Os) (trace : List Ev) (ms : List Msg) : List Ev := (ms.foldl (writeAll os) { trace := trace }).trace

/-- All batches. -/
def batches (os : Os) (trace : List Ev) (bs : List (List Msg)) : List Ev := bs.foldl (batch os) trace

end Verif.LogFiles
