import Verif.Base.Bytes
/-!
# Model of small utilities (poseidon/utils.hpp, poseidon/src/utils.cpp, poseidon/geometry.hpp)
-/
namespace Verif.Utils

/-! ### Time conversion -/

/-- The number `n` seen as a 64-bit unsigned integer. -/
def u64 (n : Int) : Nat := (n % 2 ^ 64).toNat

/-- A 64-bit pattern seen as a signed integer (two's complement). -/
def s64 (n : Nat) : Int := if n < 2 ^ 63 then n else n - 2 ^ 64

structure Timespec where
  sec : Int
  nsec : Int
deriving Repr, DecidableEq

/-- `timespec_from_system_time(ts, tm)`: `tm` is the number of nanoseconds since the epoch; the arithmetic is in
`uint64_t`, the quotient is converted to `time_t` before 9223372036 is subtracted.  (utils.hpp:146-156) -/
def timespec_from_system_time (ns : Int) : Timespec :=
  let shifted := (u64 ns + 9223372036000000000) % 2 ^ 64
  ⟨s64 (shifted / 1000000000) - 9223372036, s64 (shifted % 1000000000)⟩

/-- `system_time_from_timespec(ts)`: nanoseconds since the epoch.  (utils.hpp:138-144) No overflow for times that fit
into the 64-bit nanosecond clock. -/
def system_time_from_timespec (ts : Timespec) : Int := ts.sec * 1000000000 + ts.nsec

/-! ### Angles -/

/-- The number `n` seen as a 32-bit unsigned integer. -/
def u32 (n : Int) : Nat := (n % 2 ^ 32).toNat

/-- A 32-bit pattern seen as `int`. -/
def s32 (n : Nat) : Int := if n < 2 ^ 31 then n else n - 2 ^ 32

/-- `degrees::reduce360()`.  (geometry.hpp:44-52) -/
def reduce360 (t : Int) : Int := s32 (((u32 t + 2147483160) % 2 ^ 32) % 360)

/-- `degrees::reduce180()`: the final subtraction is in `uint32_t`.  (geometry.hpp:54-62) -/
def reduce180 (t : Int) : Int := s32 (u32 ((((u32 t + 2147483339) % 2 ^ 32) % 360 : Nat) - 179))

/-! ### Buffers -/

/-- `splice_buffers(out, move(in))` for two distinct buffers: the new contents of `out` and `in`.  (utils.hpp:117-135) -/
def splice_buffers (out inp : Bytes) : Bytes × Bytes :=
  if inp.isEmpty then (out, inp)
  else if out.isEmpty then (inp, out)
  else (out ++ inp, [])

/-- `splice_buffers(buf, move(buf))`: the aliasing case.  (utils.hpp:121-122) -/
def splice_self (buf : Bytes) : Bytes := buf

/-! ### Splitting and joining text -/

/-- Blank characters `" \t"`.  (utils.cpp:112,122,127) -/
def isBlank (c : Byte) : Bool := c == 0x20 || c == 0x09

/-- `text.find_not_of(from, " \t")`; `none` is `npos`.  (contract of rocket's string) -/
def find_not_blank (text : Bytes) (pos : Nat) : Option Nat :=
  ((text.drop pos).findIdx? (fun c => !isBlank c)).map (· + pos)

/-- `text.find(from, delim)`; `none` is `npos`.  (contract of rocket's string) -/
def find_char (text : Bytes) (pos : Nat) (delim : Byte) : Option Nat :=
  ((text.drop pos).findIdx? (fun c => c == delim)).map (· + pos)

/-- `text.rfind_not_of(to, " \t")` where `to` is inclusive: the last non-blank position below `stop = to + 1`.
(contract of rocket's string) -/
def rfind_not_blank (text : Bytes) (stop : Nat) : Option Nat :=
  ((text.take stop).reverse.findIdx? (fun c => !isBlank c)).map (fun i => (text.take stop).length - 1 - i)

/-- Outcome of `explode`: the segments, a failed assertion (`mpos != npos`), or a segment whose length
`mpos + 1 - bpos` underflows (undefined behaviour). -/
inductive Exploded
  | ok (segments : List Bytes)
  | assertFailed
  | underflow
deriving Repr, DecidableEq

theorem find_not_blank_bounds {text : Bytes} {pos bpos : Nat} (h : find_not_blank text pos = some bpos) :
    pos ≤ bpos ∧ bpos < text.length := by
  unfold find_not_blank at h
  rw [Option.map_eq_some_iff] at h
  obtain ⟨i, hi, rfl⟩ := h
  rw [List.findIdx?_eq_some_iff_getElem] at hi
  obtain ⟨hl, _⟩ := hi
  simp at hl
  omega

theorem find_char_bounds {text : Bytes} {pos epos : Nat} {c : Byte} (h : find_char text pos c = some epos) :
    pos ≤ epos ∧ epos < text.length := by
  unfold find_char at h
  rw [Option.map_eq_some_iff] at h
  obtain ⟨i, hi, rfl⟩ := h
  rw [List.findIdx?_eq_some_iff_getElem] at hi
  obtain ⟨hl, _⟩ := hi
  simp at hl
  omega

/-- Where the segment that starts at `bpos` ends: at the next delimiter, or (limit reached, or none found) past the end of
the text.  The code uses `npos / 2` for the latter.  (utils.cpp:116-118) -/
def segment_end (text : Bytes) (delim : Byte) (limit count bpos : Nat) : Nat :=
  if count + 1 < limit then
    match find_char text bpos delim with
    | some epos => epos
    | none => text.length
  else text.length

theorem segment_end_ge {text : Bytes} {delim : Byte} {limit count bpos : Nat} (h : bpos < text.length) :
    bpos ≤ segment_end text delim limit count bpos := by
  unfold segment_end
  split
  · split
    · rename_i h'; exact (find_char_bounds h').1
    · omega
  · omega

/-- The loop of `explode()`.  `pos` is where the search for the next non-blank character starts.  `epos - 1` wraps to
`npos` for `epos = 0`, so then the whole text is searched.  (utils.cpp:111-129) -/
def explode_loop (text : Bytes) (delim : Byte) (limit : Nat) (pos : Nat) (segments : List Bytes) : Exploded :=
  match h : find_not_blank text pos with
  | none => .ok segments
  | some bpos =>
    let epos := segment_end text delim limit segments.length bpos
    match rfind_not_blank text (if epos = 0 then text.length else epos) with
    | none => .assertFailed
    | some mpos =>
      if mpos + 1 < bpos then .underflow
      else explode_loop text delim limit (epos + 1) (segments ++ [(text.drop bpos).take (mpos + 1 - bpos)])
termination_by text.length - pos
decreasing_by
  have h1 := find_not_blank_bounds h
  have h2 : bpos ≤ epos := segment_end_ge h1.2
  omega

/-- `explode(segments, text, delim, limit)`.  (utils.cpp:108-129) -/
def explode (text : Bytes) (delim : Byte) (limit : Nat) : Exploded := explode_loop text delim limit 0 []

/-- `implode(text, segments, delim)`.  (utils.cpp:138-150) -/
def implode (segments : List Bytes) (delim : Byte) : Bytes :=
  match segments with
  | [] => []
  | s :: rest => rest.foldl (fun text seg => text ++ delim :: seg) s

end Verif.Utils
