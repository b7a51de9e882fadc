import Verif.Model.Zlib
/-!
# What is expected of zlib

From zlib.h.  `inp` and `out` are everything that a stream has consumed and written since it was created or reset.
-/
namespace Verif.Zlib

/-- A compressed format. -/
structure Codec where
  /-- what a decompressor makes of a sequence of bytes -/
  expand : Bytes → Bytes
  /-- a sequence of complete blocks that ends at the boundary of a byte and does not refer to anything before it -/
  Whole : Bytes → Prop
  mono : ∀ a b, expand a <+: expand (a ++ b)
  nil : Whole [] ∧ expand [] = []
  append : ∀ a b, Whole a → Whole b → Whole (a ++ b) ∧ expand (a ++ b) = expand a ++ expand b

/-- What is common to `deflate()` and `inflate()`: numbers of bytes are within bounds, `inp` and `out` tell what has been consumed and written unless there is an error, there is progress if `Z_OK`
is returned, which can't go on forever, and there was nothing to do if `Z_BUF_ERROR` is returned. -/
structure Stream (z : Zlib S) where
  inp : S → Bytes
  out : S → Bytes
  /-- what remains to be done, given how to flush and the input -/
  work : S → Flush → Bytes → Nat
  bounds : ∀ s fl i n s' c p e, z.call s fl i n = (s', c, p, e) → c ≤ i.length ∧ p.length ≤ n
  totals : ∀ s fl i n s' c p e, z.call s fl i n = (s', c, p, e) → e ≠ .other → inp s' = inp s ++ i.take c ∧ out s' = out s ++ p
  progress : ∀ s fl i n s' c p, z.call s fl i n = (s', c, p, .ok) → 0 < n → ∀ r, work s' fl (i.drop c ++ r) < work s fl (i ++ r)
  idle : ∀ s fl i n s' c p, z.call s fl i n = (s', c, p, .bufError) → 0 < n → i = []

/-- What is expected of `deflate()`: when there is nothing more to do for `Z_SYNC_FLUSH` or `Z_FULL_FLUSH`, or when a stream has ended, everything that has been consumed can be restored from what
has been written.  No stream ends unless told so. -/
structure Deflates (z : Zlib S) (expand : Bytes → Bytes) extends Stream z where
  flushed : ∀ s fl n s' c p, z.call s fl [] n = (s', c, p, .bufError) → 0 < n → fl = .sync ∨ fl = .full → expand (out s') = inp s'
  finished : ∀ s i n s' c p, z.call s .finish i n = (s', c, p, .streamEnd) → 0 < n → expand (out s') = inp s'
  noEnd : ∀ s fl i n s' c p, z.call s fl i n = (s', c, p, .streamEnd) → fl = .finish

/-- What is expected of `deflate()` for the raw format: when there is nothing more to do for `Z_SYNC_FLUSH`, what has been written ends with an empty stored block, unless it is empty. -/
structure RawDeflates (z : Zlib S) (codec : Codec) extends Deflates z codec.expand where
  whole : ∀ s n s' c p, z.call s .sync [] n = (s', c, p, .bufError) → 0 < n → codec.Whole (out s') ∧ (out s' = [] ∨ ([0x00, 0x00, 0xFF, 0xFF] : Bytes) <:+ out s')
  reset : ∀ s, inp (z.reset s) = [] ∧ out (z.reset s) = []

/-- What is expected of `inflate()`: its output is the beginning of what its input expands to, and all of that if there is nothing more to do, or when a stream has ended. -/
structure Inflates (z : Zlib S) (expand : Bytes → Bytes) extends Stream z where
  correct : ∀ s i n s' c p e, z.call s .sync i n = (s', c, p, e) → e ≠ .other → out s' <+: expand (inp s')
  complete : ∀ s i n s' c p e, z.call s .sync i n = (s', c, p, e) → 0 < n → e = .bufError ∨ e = .streamEnd → out s' = expand (inp s')

/-- What is expected of `inflate()` for the raw format: it does not fail if its input is the beginning of something that is whole. -/
structure RawInflates (z : Zlib S) (codec : Codec) extends Inflates z codec.expand where
  valid : ∀ s i n s' c p e, z.call s .sync i n = (s', c, p, e) → ∀ r, codec.Whole (inp s ++ i ++ r) → e ≠ .other ∧ e ≠ .streamEnd

/-- Pieces of data are compressed one after another, then the stream is finished.  None if an exception is thrown or some loop does not end within `n` iterations, or if data are left. -/
def compressAll (z : Zlib S) (grow : Bytes → Nat → Nat) (n : Nat) (w : Wrap S) : List Bytes → Option (Wrap S × Bool)
  | [] => match finish z grow n w with
    | .done w _ e => some (w, e = .streamEnd)
    | _ => none
  | p :: ps =>
    if p.length = 0 then compressAll z grow n w ps
    else match deflate z grow n w p with
      | .done w [] _ => compressAll z grow n w ps
      | _ => none

/-- Pieces of data are decompressed one after another, then the stream is finished.  None if an exception is thrown or some loop does not end within `n` iterations, or if data are left. -/
def decompressAll (z : Zlib S) (grow : Bytes → Nat → Nat) (n : Nat) (w : Wrap S) : List Bytes → Option (Wrap S × Bool)
  | [] => match inflateFinish z grow n w with
    | .done w _ e => some (w, e = .streamEnd)
    | _ => none
  | p :: ps =>
    if p.length = 0 then decompressAll z grow n w ps
    else match inflate z grow n w p with
      | .done w [] _ => decompressAll z grow n w ps
      | _ => none

/-- A user sends messages, and each is received before the next one is sent.  None if an exception is thrown or some loop does not end within `n` iterations.  Gives what is received, and
whether it was compressed. -/
def exchange (zs : Zlib S) (zr : Zlib R) (grow : Bytes → Nat → Nat) (noCtx : Bool) (limit n : Nat) : S → R → List Bytes → Option (List (Bytes × Bool))
  | _, _, [] => some []
  | s, r, m :: ms =>
    match sendMessage zs grow noCtx n s m with
    | none => none
    | some t => match recvMessage zr grow limit n r t.compressed t.payload with
      | .done w _ _ => (exchange zs zr grow noCtx limit n t.strm w.strm ms).map ((w.buf, t.compressed) :: ·)
      | _ => none

end Verif.Zlib
