import Verif.Model.LogEntry
/-!
# The texts of exceptions and log messages

Models `do_push_log_message()` and `do_create_runtime_error()` in `poseidon/src/utils.cpp`.  What libunwind says about the stack is a parameter.  The two traversals of the stack visit the same frames.
-/
namespace Verif.ErrorText

/-- The characters that are removed from the end. -/
def blank (c : Byte) : Bool := c = chr ' ' ∨ c = chr '\t' ∨ c = chr '\r' ∨ c = chr '\n'

/-- `sbuf.erase(sbuf.find_last_not_of(" \t\r\n") + 1)`; where nothing is found, `npos + 1` is zero.  (utils.cpp:28, 42) -/
def trimEnd : Bytes → Bytes
  | [] => []
  | c :: t => match trimEnd t with
    | [] => if blank c then [] else [c]
    | r => c :: r

/-- The text that is passed to `logger.enqueue()`.  (utils.cpp:21-34) -/
def logText (composed : Bytes) : Bytes := trimEnd composed

/-- What libunwind says about a frame: the instruction pointer, and, unless this is not known, the name of the function and the offset in it. -/
structure Frame where
  ip : Nat
  name : Option (Bytes × Nat)
deriving DecidableEq, Repr

/-- `nump.put_XU(n)` -/
def putXU (n : Nat) : Bytes := b! "0x" ++ Http.hex_length n

/-- A frame, after its index.  (utils.cpp:80-101) -/
def frameText (f : Frame) : Bytes :=
  putXU f.ip ++ match f.name with
    | none => b! " (unknown)"
    | some (name, offset) => b! " `" ++ name ++ b! "`" ++ if offset > 0 then b! "+" ++ putXU offset else []

/-- `std::reverse_copy(nump.begin(), nump.end(), numfield.mut_rbegin())`: the digits overwrite the end of the field, and the rest of it stays as it was.  (utils.cpp:75) -/
def overwriteEnd (field digits : Bytes) : Bytes := field.take (field.length - digits.length) ++ digits

/-- The loop; `nframes` is the number of frames before.  (utils.cpp:69-102) -/
def frames (field : Bytes) (nframes : Nat) : List Frame → Bytes
  | [] => []
  | f :: fs =>
    let field := overwriteEnd field (Http.decimal (nframes + 1))
    b! "\n  " ++ field ++ b! ") " ++ frameText f ++ frames field (nframes + 1) fs

/-- `static_vector<char, 8> numfield(nump.size(), ' ')`, which throws if there are more than eight.  (utils.cpp:66) -/
def numfield (n : Nat) : Option Bytes := if (Http.decimal n).length ≤ 8 then some (List.replicate (Http.decimal n).length (chr ' ')) else none

/-- `do_create_runtime_error()`.  `stack` is `none` if libunwind fails; and the result is `none` if another exception is thrown.  (utils.cpp:36-109) -/
def create (composed func file : Bytes) (line : Nat) (stack : Option (List Frame)) : Option Bytes :=
  let sbuf := trimEnd composed ++ b! "\n[thrown from function `" ++ func ++ b! "` at '" ++ file ++ b! ":" ++ Http.decimal line ++ b! "']"
  match stack with
  | none => some sbuf
  | some fs => (numfield fs.length).map fun field => sbuf ++ b! "\n[stack backtrace:" ++ frames field 0 fs ++ b! "\n  -- end of stack backtrace]"

end Verif.ErrorText
