import Verif.Base.Bytes
/-!
# Model of `hex_encode_16_partial` (poseidon/src/utils.cpp:243-263)

The SSE2 code is modelled lane by lane.  An `__m128i` is a list of 16 bytes, memory order.
-/
namespace Verif.Hex

/-- `_mm_srli_epi64(v, 4)` restricted to one 64-bit lane given as bytes in memory (little-endian) order: each byte
receives the low nibble of its more significant neighbour.  (utils.cpp:249) -/
def srl4 : Bytes → Bytes
  | [] => []
  | [b] => [b >>> 4]
  | b :: c :: t => (b >>> 4 ||| c <<< 4) :: srl4 (c :: t)

/-- `_mm_srli_epi64(v, 4)` on the two lanes.  (utils.cpp:249) -/
def srli4_epi64 (v : Bytes) : Bytes := srl4 (v.take 8) ++ srl4 (v.drop 8)

/-- `xdigit := val + '0' + (-(val > 9) & 39)`; `_mm_cmpgt_epi8` is a signed comparison.  (utils.cpp:252-257) -/
def xdigit (val : Byte) : Byte :=
  (val + 0x30) + ((if val.toInt8 > 9 then (0xFF : Byte) else 0) &&& 39)

/-- `_mm_unpacklo_epi8` followed by `_mm_unpackhi_epi8`: bytes of the two registers interleaved.  (utils.cpp:260-261) -/
def interleave : Bytes → Bytes → Bytes
  | a :: as, b :: bs => a :: b :: interleave as bs
  | _, _ => []

/-- `hex_encode_16_partial(str, data)`: the 32 characters written (without the NUL).  (utils.cpp:243-263) -/
def hex_encode_16_partial (data : Bytes) : Bytes :=
  let hi := (srli4_epi64 data).map (· &&& 15)
  let lo := data.map (· &&& 15)
  interleave (hi.map xdigit) (lo.map xdigit)

end Verif.Hex
